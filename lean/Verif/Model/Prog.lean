/-!
# Goroutines that read and write shared memory

The drawing code of `blend` splits its work over goroutines that read and write the same `Pix` slices without locks
(blend/draw.go:35-128). A goroutine is modelled as a tree of single memory accesses, the goroutines of a draw as a list
of such trees, and an execution as any interleaving of their accesses. The Go memory model promises sequential
consistency for programs without data races only; the theorems that rely on this semantics for several goroutines show
that no two of them touch the same byte, and the one counterexample needs no more than an interleaving.
-/

namespace Psd

/-- A goroutine over memory cells `A` holding values `V`. -/
inductive Prog (A V : Type) where
  /-- It has returned. -/
  | done
  /-- It panics (and takes the process down). -/
  | panic
  /-- It reads cell `a` and goes on with the value. -/
  | read (a : A) (k : V → Prog A V)
  /-- It writes `v` to cell `a` and goes on. -/
  | write (a : A) (v : V) (k : Prog A V)

/-- Memory: what each cell holds. -/
abbrev Mem (A V : Type) := A → V

section
variable {A V : Type} [DecidableEq A]

/-- One cell changed. -/
def Mem.set (m : Mem A V) (a : A) (v : V) : Mem A V := fun b => if b = a then v else m b

/-- One access by any one of the goroutines. -/
inductive Step : Mem A V × List (Prog A V) → Mem A V × List (Prog A V) → Prop where
  | read (m : Mem A V) (ps : List (Prog A V)) (i : Nat) (a : A) (k : V → Prog A V) (h : ps[i]? = some (.read a k)) :
      Step (m, ps) (m, ps.set i (k (m a)))
  | write (m : Mem A V) (ps : List (Prog A V)) (i : Nat) (a : A) (v : V) (k : Prog A V)
      (h : ps[i]? = some (.write a v k)) : Step (m, ps) (m.set a v, ps.set i k)

/-- `n` accesses, in any order the scheduler likes. -/
inductive Steps : Nat → Mem A V × List (Prog A V) → Mem A V × List (Prog A V) → Prop where
  | refl (c : Mem A V × List (Prog A V)) : Steps 0 c c
  | tail {n : Nat} {c c' c'' : Mem A V × List (Prog A V)} (h : Steps n c c') (s : Step c' c'') : Steps (n + 1) c c''

/-- Reads the cells `as` in order and goes on with their values. -/
def readAll : List A → (List V → Prog A V) → Prog A V
  | [], k => k []
  | a :: as, k => .read a fun v => readAll as fun vs => k (v :: vs)

/-- Writes the values `vs` to the cells `as` in order and goes on. -/
def writeAll : List A → List V → Prog A V → Prog A V
  | a :: as, v :: vs, k => .write a v (writeAll as vs k)
  | _, _, k => k

end

end Psd
