import Verif.Model.Basic

/-
Model of `io.Reader` and of the reader helpers of /repo/util.go.
-/

namespace Psd

/-- What the dynamic type of the reader offers to `discard` (util.go:113-129). -/
inductive Kind where
  | plain       -- only Read
  | discarder   -- has Discard (bufio.Reader)
  | seeker      -- has Seek (os.File, bytes.Reader)
  deriving DecidableEq, Repr

/-- One `LayerImageLoaded` call: SeqID of the layer passed, index, total. -/
structure Event where
  seqID : Nat
  index : Nat
  total : Nat
  deriving DecidableEq, Repr

/-- A reader over the bytes `data`, positioned at offset `pos`.

* `sched`: how many bytes (at most) each of the next `Read` calls delivers; when the list is
  exhausted every `Read` delivers as much as it is asked for.
* `tail`: the error reported once all data has been delivered.
* `eager`: whether that error already accompanies the `Read` that delivers the last bytes
  (allowed by the `io.Reader` contract).
* `log`: the callbacks made so far (not part of the reader; carried along as observable effect). -/
structure St where
  data : List UInt8
  pos : Nat := 0
  sched : List Nat := []
  kind : Kind := .plain
  tail : Err := .eof
  eager : Bool := false
  log : List Event := []
  deriving DecidableEq, Repr

/-- The bytes not yet delivered. -/
def St.avail (s : St) : List UInt8 := s.data.drop s.pos

/-- A decoding step. -/
def P (α : Type) := St → Res (α × St)

namespace P

def pure {α : Type} (a : α) : P α := fun s => .ok (a, s)

def bind {α β : Type} (p : P α) (f : α → P β) : P β := fun s =>
  match p s with
  | .ok (a, s') => f a s'
  | .err e => .err e
  | .panic q => .panic q
  | .fuel => .fuel

instance : Monad P where
  pure := pure
  bind := bind

/-- `return …, err`. -/
def fail {α : Type} (e : Err) : P α := fun _ => .err e

/-- A pure computation that may panic or fail. -/
def lift {α : Type} (x : Res α) : P α := fun s =>
  match x with
  | .ok a => .ok (a, s)
  | .err e => .err e
  | .panic q => .panic q
  | .fuel => .fuel

/-- The model's recursion bound was too small. -/
def outOfFuel {α : Type} : P α := fun _ => .fuel

/-- Record a `LayerImageLoaded` call. -/
def emit (e : Event) : P Unit := fun s => .ok ((), { s with log := s.log ++ [e] })

end P

/-- How many bytes one call `r.Read(buf)` with `len(buf) = k` delivers. -/
def readAmount (k : Nat) (s : St) : Nat :=
  match s.sched with
  | [] => min k s.avail.length
  | c :: _ => min k (min c s.avail.length)

/-- One call `r.Read(buf)` with `len(buf) = k > 0`: the bytes delivered, the error returned along
with them, and the reader afterwards. -/
def readOnce (k : Nat) (s : St) : List UInt8 × Option Err × St :=
  if s.avail = [] then ([], some s.tail, s)
  else
    let m := readAmount k s
    (s.avail.take m,
     if s.eager && m == s.avail.length then some s.tail else none,
     { s with pos := s.pos + m, sched := s.sched.tail })

/-- Error returned by `io.ReadFull` when the underlying reader stopped after `got` of the
wanted bytes: EOF becomes ErrUnexpectedEOF if anything was read (io.ReadAtLeast). -/
def shortErr (got : Nat) (tail : Err) : Err :=
  if tail = .eof ∧ got ≠ 0 then .unexpectedEOF else tail

/-- The loop of `io.ReadAtLeast`: keep calling `Read` for the missing `need` bytes.  `got` counts
the bytes already delivered; `sched` and `avail` are the reader's.  Returns how many bytes were
taken in total and the remaining schedule. -/
def readLoop (tail : Err) (eager : Bool) :
    (sched : List Nat) → (need got avail : Nat) → Res (List Nat)
  | sched, 0, _, _ => .ok sched
  | [], need + 1, got, avail =>
      if need + 1 ≤ avail then .ok [] else .err (shortErr (got + avail) tail)
  | c :: cs, need + 1, got, avail =>
      if avail = 0 then .err (shortErr got tail)
      else
        let m := min (need + 1) (min c avail)
        if eager ∧ m = avail ∧ m < need + 1 then .err (shortErr (got + m) tail)
        else readLoop tail eager cs (need + 1 - m) (got + m) (avail - m)

/-- `io.ReadFull(r, buf)` with `len(buf) = k`: on success exactly `k` bytes are delivered.
The reader's state after a failure is not modelled: no function of /repo uses it again. -/
def readFull (k : Nat) : P (List UInt8) := fun s =>
  match readLoop s.tail s.eager s.sched k 0 s.avail.length with
  | .ok sched => .ok (s.avail.take k, { s with pos := s.pos + k, sched := sched })
  | .err e => .err e
  | .panic q => .panic q
  | .fuel => .fuel

/-- A bare `r.Read(buf)` with `len(buf) = k` whose error is returned to the caller, yielding the
number of bytes read. -/
def bareRead (k : Nat) : P Int := fun s =>
  match readOnce k s with
  | (bs, none, s') => .ok ((bs.length : Int), s')
  | (_, some e, _) => .err e

/-- util.go:97-103 `adjustAlign2`. -/
def adjustAlign2 (l : Int) : P Int :=
  if l % 2 ≠ 0 then bareRead 1 else pure 0

/-- util.go:105-111 `adjustAlign4`. `l & 3` is `l mod 4` also for negative `l`. -/
def adjustAlign4 (l : Int) : P Int :=
  let gap := l % 4
  if gap > 0 then bareRead (4 - gap).toNat else pure 0

/-- util.go:113-129 `discard`.

* Discarder: bufio's `Discard(n)`: error if `n` is negative or the data ends early.
* Seeker: `Seek(skip, 1)`: any non-negative target position is accepted, even past the end; a
  position that overflows int64 is rejected.
* otherwise `io.CopyN(ioutil.Discard, r, skip)`: `EOF` if the data ends early; a negative
  `skip` copies nothing and returns no error.

The schedule of a discarder/plain reader is left as it is (simplification: how many of the
scheduled short reads a skip uses up is not tracked). -/
def discard (skip : Int) : P Int := fun s =>
  match s.kind with
  | .discarder =>
    if skip < 0 then .err .negative
    else if skip.toNat ≤ s.avail.length then .ok (skip, { s with pos := s.pos + skip.toNat })
    else .err s.tail
  | .seeker =>
    if (s.pos : Int) + skip < 0 ∨ (s.pos : Int) + skip ≥ 2 ^ 63 then .err .seek
    else .ok (skip, { s with pos := ((s.pos : Int) + skip).toNat })
  | .plain =>
    if skip < 0 then .ok (0, s)
    else if skip.toNat ≤ s.avail.length then .ok (skip, { s with pos := s.pos + skip.toNat })
    else .err s.tail

/-- util.go:131-144 `readPascalString`: string bytes and bytes read. -/
def readPascalString : P (List UInt8 × Int) := do
  let b ← readFull 1
  let n := beNat b
  if n = 0 then
    pure ([], 1)
  else do
    let buf ← readFull n
    pure (buf, (buf.length : Int) + 1)

end Psd
