import Verif.Lemmas.Fuel

/-
Parsers that never panic.
-/

namespace Psd

/-- `p` never panics. -/
def NoPanic {α : Type} (p : P α) : Prop := ∀ s q, p s ≠ .panic q

namespace NoPanic
variable {α β : Type}

theorem pure (a : α) : NoPanic (Pure.pure a : P α) := by intro s q; simp

theorem fail (e : Err) : NoPanic (P.fail e : P α) := by intro s q; simp

theorem outOfFuel : NoPanic (P.outOfFuel : P α) := by intro s q h; cases h

theorem bind {p : P α} {f : α → P β} (h1 : NoPanic p) (h2 : ∀ a, NoPanic (f a)) :
    NoPanic (p >>= f) := by
  intro s q
  rw [P.bind_apply]
  cases hp : p s with
  | ok r => exact h2 _ _ _
  | err e => simp
  | panic e => exact absurd hp (h1 s e)
  | fuel => simp

theorem ite {c : Prop} [Decidable c] {p q : P α} (h1 : c → NoPanic p) (h2 : ¬c → NoPanic q) :
    NoPanic (if c then p else q) := by
  split
  · exact h1 ‹_›
  · exact h2 ‹_›

theorem lift {x : Res α} (h : ∀ q, x ≠ .panic q) : NoPanic (P.lift x) := by
  intro s q; cases x <;> simp_all [P.lift]

theorem readFull (k : Nat) : NoPanic (readFull k) := by
  intro s q
  by_cases h : k ≤ s.avail.length
  · obtain ⟨_, e, _⟩ := readFull_ok h; rw [e]; simp
  · rw [readFull_err (by omega)]; simp

theorem bareRead (k : Nat) : NoPanic (bareRead k) := by
  intro s q; unfold Psd.bareRead; split <;> simp

theorem align2 (l : Int) : NoPanic (adjustAlign2 l) := by
  unfold adjustAlign2; split
  · exact bareRead _
  · exact pure _

theorem align4 (l : Int) : NoPanic (adjustAlign4 l) := by
  unfold adjustAlign4; simp only; split
  · exact bareRead _
  · exact pure _

theorem discard (n : Int) : NoPanic (discard n) := by
  intro s q; unfold Psd.discard; cases s.kind <;> simp only <;> (repeat' split) <;> simp

theorem pascal : NoPanic readPascalString := by
  unfold readPascalString
  refine bind (readFull _) fun b => ?_
  simp only
  exact ite (fun _ => pure _) fun _ => bind (readFull _) fun _ => pure _

theorem resBlock : NoPanic readResBlock := by
  unfold readResBlock
  refine bind (readFull _) fun b => ite (fun _ => fail _) fun _ => bind pascal fun ⟨n, l⟩ => ?_
  refine bind (align2 _) fun _ => bind (readFull _) fun _ => bind (readFull _) fun _ => ?_
  exact bind (align2 _) fun _ => pure _

theorem resLoop (total : Int) : ∀ fuel read m, NoPanic (readResLoop total fuel read m) := by
  intro fuel
  induction fuel with
  | zero =>
    intro read m
    rw [readResLoop.eq_def]; simp only
    exact ite (fun _ => outOfFuel) fun _ => pure _
  | succ n ih =>
    intro read m
    rw [readResLoop.eq_def]; simp only
    exact ite (fun _ => bind resBlock fun ⟨_, _, _⟩ => ih _ _) fun _ => pure _

theorem configF (n : Nat) : NoPanic (decodeConfigF n) := by
  unfold decodeConfigF readImageResourceF
  refine bind (readFull _) fun b => ?_
  refine ite (fun _ => fail _) fun _ => ?_
  refine ite (fun _ => fail _) fun _ => ?_
  refine ite (fun _ => fail _) fun _ => ?_
  refine ite (fun _ => fail _) fun _ => ?_
  refine ite (fun _ => fail _) fun _ => ?_
  refine ite (fun _ => fail _) fun _ => ?_
  refine bind (readFull _) fun cmd => bind ?_ fun ⟨_, _⟩ => pure _
  refine bind (readFull _) fun b => ite (fun _ => pure _) fun _ => resLoop _ _ _ _

end NoPanic

end Psd
