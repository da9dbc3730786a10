/-
Go-flavoured primitives shared by the whole model.

Nothing here models a particular function of /repo; it fixes the meaning of the Go language
constructs that the other files use.
-/

namespace Psd

/-- Errors that the modelled functions return.  `eof`, `unexpectedEOF` are `io.EOF` and
`io.ErrUnexpectedEOF`; `io n` is any other error produced by the underlying reader; `negative`
is bufio's `ErrNegativeCount`; `seek` is the error of a `Seek` to a negative position;
`user` is an error returned by the caller's `ConfigLoaded` callback; every `errors.New` of the
code is `bad`, tagged with a short label naming the message. -/
inductive Err where
  | eof
  | unexpectedEOF
  | io (n : Nat)
  | negative
  | seek
  | zlib
  | user
  | bad (label : String)
  deriving DecidableEq, Repr

/-- Run-time panics of Go code. -/
inductive Panic where
  | index        -- index or slice bounds out of range
  | makeslice    -- `make` with a negative or over-large length
  | nilDeref     -- method call on a nil interface
  | divZero      -- integer division by zero
  deriving DecidableEq, Repr

/-- Outcome of a Go function: normal return, error return, run-time panic; `fuel` means that
the model's recursion bound was too small (shown unreachable by the termination theorems). -/
inductive Res (α : Type) where
  | ok (a : α)
  | err (e : Err)
  | panic (p : Panic)
  | fuel
  deriving DecidableEq, Repr

namespace Res

def bind {α β : Type} (x : Res α) (f : α → Res β) : Res β :=
  match x with
  | ok a => f a
  | err e => err e
  | panic p => panic p
  | fuel => fuel

instance : Monad Res where
  pure := ok
  bind := bind

/-- The call returned normally. -/
def isOk {α : Type} : Res α → Bool
  | ok _ => true
  | _ => false

/-- The call panicked. -/
def isPanic {α : Type} : Res α → Bool
  | panic _ => true
  | _ => false

/-- The call returned an error. -/
def isErr {α : Type} : Res α → Bool
  | err _ => true
  | _ => false

def map {α β : Type} (f : α → β) : Res α → Res β
  | ok a => ok (f a)
  | err e => err e
  | panic p => panic p
  | fuel => fuel

end Res

/-- A Go `map[κ]ν`, up to iteration order: lookup function. -/
abbrev GoMap (κ ν : Type) := κ → Option ν

namespace GoMap
variable {κ ν : Type} [DecidableEq κ]

/-- `map[κ]ν{}` (and the nil map, for reading). -/
def empty : GoMap κ ν := fun _ => none

/-- `m[k] = v`. -/
def set (m : GoMap κ ν) (k : κ) (v : ν) : GoMap κ ν :=
  fun k' => if k' = k then some v else m k'

/-- `delete(m, k)`. -/
def del (m : GoMap κ ν) (k : κ) : GoMap κ ν :=
  fun k' => if k' = k then none else m k'

end GoMap

/-- `int(x)` for a 64-bit unsigned `x`: two's complement reinterpretation on a 64-bit platform. -/
def int64 (n : Nat) : Int :=
  let m : Nat := n % 2 ^ 64
  if m < 2 ^ 63 then (m : Int) else (m : Int) - 2 ^ 64

/-- `int(int32(x))` for a 32-bit unsigned `x`. -/
def int32 (n : Nat) : Int :=
  let m : Nat := n % 2 ^ 32
  if m < 2 ^ 31 then (m : Int) else (m : Int) - 2 ^ 32

/-- `int(int16(x))` for a 16-bit unsigned `x`. -/
def int16 (n : Nat) : Int :=
  let m : Nat := n % 2 ^ 16
  if m < 2 ^ 15 then (m : Int) else (m : Int) - 2 ^ 16

/-- Two's complement wrap of a mathematical integer to Go's 64-bit `int`. -/
def wrap64 (x : Int) : Int := Int.bmod x (2 ^ 64)

/-- The largest allocation `make` accepts on 64-bit Linux (runtime `maxAlloc`). -/
def maxAlloc : Nat := 2 ^ 48

/-- `make([]byte, n)`: only the length matters; panics like the Go runtime when the length is
negative or larger than `maxAlloc`.  Running out of physical memory is not modelled. -/
def goMake (n : Int) : Res Nat :=
  if 0 ≤ n ∧ n ≤ maxAlloc then .ok n.toNat else .panic .makeslice

/-- `s[i]`. -/
def goIndex {α : Type} (s : List α) (i : Nat) : Res α :=
  match s[i]? with
  | some a => .ok a
  | none => .panic .index

/-- `s[lo:hi]` for a slice whose capacity equals its length. -/
def goSlice {α : Type} (s : List α) (lo hi : Nat) : Res (List α) :=
  if lo ≤ hi ∧ hi ≤ s.length then .ok ((s.take hi).drop lo) else .panic .index

/-- `image.Rectangle`. -/
structure Rect where
  minX : Int
  minY : Int
  maxX : Int
  maxY : Int
  deriving DecidableEq, Repr

namespace Rect

/-- The zero `image.Rectangle`. -/
def zero : Rect := ⟨0, 0, 0, 0⟩

/-- `image.Rect(x0, y0, x1, y1)`: swaps coordinates so that the result is well-formed. -/
def make (x0 y0 x1 y1 : Int) : Rect :=
  ⟨min x0 x1, min y0 y1, max x0 x1, max y0 y1⟩

/-- `r.Dx()`. -/
def dx (r : Rect) : Int := r.maxX - r.minX
/-- `r.Dy()`. -/
def dy (r : Rect) : Int := r.maxY - r.minY

/-- `r.Empty()`. -/
def empty (r : Rect) : Bool := r.minX ≥ r.maxX || r.minY ≥ r.maxY

/-- The point (x, y) lies in r (`image.Point.In`). -/
def Mem (r : Rect) (x y : Int) : Prop :=
  r.minX ≤ x ∧ x < r.maxX ∧ r.minY ≤ y ∧ y < r.maxY

instance (r : Rect) (x y : Int) : Decidable (r.Mem x y) :=
  inferInstanceAs (Decidable (_ ∧ _ ∧ _ ∧ _))

/-- `r.Intersect(s)`: the zero rectangle if the intersection is empty. -/
def intersect (r s : Rect) : Rect :=
  let t : Rect := ⟨max r.minX s.minX, max r.minY s.minY, min r.maxX s.maxX, min r.maxY s.maxY⟩
  if t.empty then zero else t

/-- `r.Union(s)`. -/
def union (r s : Rect) : Rect :=
  if r.empty then s
  else if s.empty then r
  else ⟨min r.minX s.minX, min r.minY s.minY, max r.maxX s.maxX, max r.maxY s.maxY⟩

/-- `r.Add(p)`. -/
def add (r : Rect) (x y : Int) : Rect := ⟨r.minX + x, r.minY + y, r.maxX + x, r.maxY + y⟩

end Rect

/-- Value of a big-endian byte string. -/
def beNat : List UInt8 → Nat
  | [] => 0
  | b :: bs => b.toNat * 256 ^ bs.length + beNat bs

end Psd
