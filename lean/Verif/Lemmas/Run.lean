import Verif.Lemmas.Sim
import Verif.Props.Common

namespace Psd

/-- A parser that reads `b` on a reader that fills every request does so under every schedule of
reads of at least `m` bytes. -/
theorem Runs.any {α : Type} {p : P α} {b : List UInt8} {a : α} {m : Nat} (hr : Runs p b a)
    (hs : Sim (SameBytes m) p p) (s : St) (rest : List UInt8) (hav : s.avail = b ++ rest)
    (hsched : ReadsAtLeast m s.sched) (heager : s.eager = false) (hsize : s.data.length < 2 ^ 63)
    (hpos : s.pos ≤ s.data.length) :
    ∃ sched', p s = .ok (a, { s with pos := s.pos + b.length, sched := sched' }) ∧
      ∀ c ∈ sched', m ≤ c := by
  have hl := congrArg List.length hav
  rw [St.avail_length, List.length_append] at hl
  have h1 := hr { s with sched := [] } rest rfl heager hav (by simp only; omega)
  have h2 := hs { s with sched := [] } s ⟨rfl, by simp, hsched, hsize⟩
  rw [h1] at h2
  split at h2
  · rename_i he hs
    cases he
    obtain ⟨rfl, h3⟩ := h2
    rw [hs]
    refine ⟨_, ?_, h3.2.2.1⟩
    rw [h3.1]
  all_goals first | exact h2.elim | (rename_i he _; cases he)

theorem sim_cmDecode {m : Nat} (hm : 1 ≤ m) (env : Env) {method : Int} (h2 : method ≠ 2)
    (h3 : method ≠ 3) (dest : List UInt8) (hint : Int) (rect : Rect) (depth ch : Nat) (large : Bool) :
    Sim (SameBytes m) (cmDecode env method dest hint rect depth ch large)
      (cmDecode env method dest hint rect depth ch large) :=
  (sim_clo hm).cmDecodeNoZip Sim.lift env h2 h3 dest hint rect depth ch large

end Psd
