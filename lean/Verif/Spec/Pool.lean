import Verif.Model.Buffers

/-!
# What a renderer's pool of buffers goes through
-/

namespace Psd

/-- The states a renderer's buffers and goroutines can be in. A renderer starts with nothing in its pool. A render starts once the goroutines of
the one before have returned; between renders the caches and the scene may change in any way. Then any goroutine may act. -/
inductive PoolHistory {P M : Type} (ops : PicOps P M) : RGlob P × List (RProg P) → Prop where
  | fresh (mem : Nat → P) (st : RState P) (dest : TPt → P) : PoolHistory ops (⟨mem, [], 0, st, dest, false⟩, [])
  | render {g : RGlob P} {ps : List (RProg P)} (h : PoolHistory ops (g, ps)) (hd : ∀ p ∈ ps, p = .done) (s : Scene P M) (fuel : Nat) (diff : Bool) (procs ts : Nat)
      (hp : 1 ≤ procs) (ht : 1 ≤ ts) (rect : Rect) (st : RState P) (dest : TPt → P) :
      PoolHistory ops ({ g with st := { st with changes := [] }, dest := dest, aborted := false }, renderProgs ops s fuel diff procs ts rect)
  | step {c c' : RGlob P × List (RProg P)} (h : PoolHistory ops c) (s : RStep ops c c') : PoolHistory ops c'

/-- The next action of a goroutine reads, writes or puts back the array `b`. -/
def RProg.Touches {P : Type} (b : Nat) : RProg P → Prop
  | .load c _ => c = b
  | .store c _ _ => c = b
  | .put c _ => c = b
  | _ => False

end Psd
