/-!
# Goroutines of /repo/composite/context.go and of `createCanvas` in /repo/composite/layer.go

Transition systems: a state lists where every goroutine is; a step is one atomic action of one of them, in any order.
Unbuffered channels hand over a value in one step of sender and receiver together.
-/

namespace Psd

/-- `Run step n s s'`: `n` steps lead from `s` to `s'`. -/
inductive Run {S : Type} (step : S → S → Prop) : Nat → S → S → Prop
  | refl (s : S) : Run step 0 s s
  | tail {n : Nat} {s t u : S} : Run step n s t → step t u → Run step (n + 1) s u

/-- A worker of a parallel phase: it has at most `k` actions left, polling the abort flag (context.go:41-46) as it likes, and then calls
`Done` (context.go:48-53, deferred by every worker); or it has called `Done`. -/
inductive Worker where
  | running (k : Nat)
  | done
  deriving DecidableEq, Repr

/-- The goroutine of context.go:20-23: waiting for the workers, sending on the channel, or finished. -/
inductive Closer where
  | waiting
  | sending
  | finished
  deriving DecidableEq, Repr

/-- The caller of `Wait`: at the `select` of context.go:24, before `SetAbort` of line 28, at the receive of line 29, or
returned; `true` is `ErrAborted`, `false` is nil. -/
inductive Waiter where
  | selecting
  | aborting
  | draining
  | returned (aborted : Bool)
  deriving DecidableEq, Repr

structure WaitState where
  workers : List Worker
  /-- the flag set by `SetAbort` (context.go:34-39) -/
  abort : Bool
  /-- the context is cancelled -/
  cancelled : Bool
  closer : Closer
  main : Waiter
  deriving Repr

/-- context.go:18-32 `Wait`: one step of the workers, of the goroutine that waits for them, of the caller or of whoever
holds the context's cancel function. `Wg.Add(n)` with as many workers precedes every call. -/
inductive WaitStep : WaitState → WaitState → Prop
  /-- a worker acts -/
  | work (s i k) : s.workers[i]? = some (.running (k + 1)) → WaitStep s { s with workers := s.workers.set i (.running k) }
  /-- a worker that sees the abort flag returns early; its deferred `Done` is still to come -/
  | quit (s i k) : s.workers[i]? = some (.running (k + 1)) → s.abort = true →
      WaitStep s { s with workers := s.workers.set i (.running 0) }
  /-- a worker calls `Done` -/
  | done (s i) : s.workers[i]? = some (.running 0) → WaitStep s { s with workers := s.workers.set i .done }
  /-- context.go:21 `Wg.Wait()` returns -/
  | waited (s) : s.closer = .waiting → (∀ w ∈ s.workers, w = .done) → WaitStep s { s with closer := .sending }
  /-- context.go:22 meets the receive of line 25 -/
  | complete (s) : s.closer = .sending → s.main = .selecting → WaitStep s { s with closer := .finished, main := .returned false }
  /-- context.go:27: the context is cancelled -/
  | notice (s) : s.main = .selecting → s.cancelled = true → WaitStep s { s with main := .aborting }
  /-- context.go:28 -/
  | setAbort (s) : s.main = .aborting → WaitStep s { s with abort := true, main := .draining }
  /-- context.go:22 meets the receive of line 29 -/
  | drained (s) : s.closer = .sending → s.main = .draining → WaitStep s { s with closer := .finished, main := .returned true }
  /-- the context is cancelled from outside, at any moment -/
  | cancel (s) : s.cancelled = false → WaitStep s { s with cancelled := true }

/-- The state when `Wait` is called: every worker runs; the context may be cancelled already. -/
def WaitState.start (work : List Nat) (cancelled : Bool) : WaitState :=
  ⟨work.map .running, false, cancelled, .waiting, .selecting⟩

/-! ### createCanvas -/

/-- A goroutine running `createCanvasInner` (layer.go:287-319): at the receive of line 289, working on a layer with at
most `k` actions left, or returned. -/
inductive Loader where
  | idle
  | working (k : Nat)
  | exited
  deriving DecidableEq, Repr

/-- The goroutine that runs `createCanvas` (layer.go:252-285): decoding with `m` layers still to come, at the send of
line 274 with `m` layers to come after it, waiting for the workers (line 280) after closing the channel, or returned;
`true` is success. -/
inductive Decoder where
  | decoding (m : Nat)
  | sending (m : Nat)
  | waiting
  | returned (ok : Bool)
  deriving DecidableEq, Repr

structure LoadState where
  workers : List Loader
  cancelled : Bool
  main : Decoder
  deriving Repr

/-- layer.go:252-319. A layer's conversion (`newScaledTiledImage`, `newScaledTiledMask`) can fail only because the context
is cancelled, at any moment after that; then the worker returns. The inner parallelism of a conversion (`C61`) is one of
its actions; `K` bounds the number of actions a layer takes. -/
inductive LoadStep (K : Nat) : LoadState → LoadState → Prop
  /-- the decoder reaches the next layer -/
  | decode (s m) : s.main = .decoding (m + 1) → LoadStep K s { s with main := .sending m }
  /-- line 274 meets line 289 -/
  | hand (s m i k) : s.main = .sending m → s.workers[i]? = some .idle → k ≤ K →
      LoadStep K s { s with main := .decoding m, workers := s.workers.set i (.working k) }
  /-- the decoder fails: lines 276-279 -/
  | fail (s m) : s.main = .decoding m → LoadStep K s { s with main := .returned false }
  /-- the decoder is through: line 276 closes the channel -/
  | close (s) : s.main = .decoding 0 → LoadStep K s { s with main := .waiting }
  /-- a worker acts -/
  | work (s i k) : s.workers[i]? = some (.working (k + 1)) → LoadStep K s { s with workers := s.workers.set i (.working k) }
  /-- a worker stores its result: lines 315-317 -/
  | store (s i) : s.workers[i]? = some (.working 0) → LoadStep K s { s with workers := s.workers.set i .idle }
  /-- a worker gives up: lines 298-300, 307-309 -/
  | quit (s i k) : s.workers[i]? = some (.working k) → s.cancelled = true → LoadStep K s { s with workers := s.workers.set i .exited }
  /-- a worker finds the channel closed -/
  | closed (s i) : s.workers[i]? = some .idle → (s.main = .waiting ∨ ∃ ok, s.main = .returned ok) →
      LoadStep K s { s with workers := s.workers.set i .exited }
  /-- line 280: all workers are done -/
  | waited (s) : s.main = .waiting → (∀ w ∈ s.workers, w = .exited) → LoadStep K s { s with main := .returned true }
  /-- line 280: `ErrAborted`, after all workers are done -/
  | aborted (s) : s.main = .waiting → s.cancelled = true → (∀ w ∈ s.workers, w = .exited) →
      LoadStep K s { s with main := .returned false }
  /-- the context is cancelled from outside, at any moment -/
  | cancel (s) : s.cancelled = false → LoadStep K s { s with cancelled := true }

/-- The state when `createCanvas` starts decoding a file of `layers` layers with `n` goroutines (layer.go:253-265). -/
def LoadState.start (n layers : Nat) (cancelled : Bool) : LoadState := ⟨List.replicate n .idle, cancelled, .decoding layers⟩

end Psd
