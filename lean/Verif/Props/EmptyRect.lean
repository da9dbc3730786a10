import Verif.Props.Load

/-!
# Theorem C80 for trees with nothing on the canvas
-/

namespace Psd

/-- **C80** If no point is in `Rect` of a tree, because no layer reaches `CanvasRect`, it is the rectangle from (0, 0) to (0, 0): which points are in `Rect` (`C80_rect_around_layers`) determines its four sides. -/
theorem C80_empty_rect {grow : Nat → Nat} {dec : List UInt8 → Option (List UInt8)} {fuel : Nat} {doc : Rect} {s : Import} {t : LayerTree}
    (h : finishNew grow dec fuel doc s = .ok t) (he : ∀ x y, ¬t.rect.Mem x y) : t.rect = ⟨0, 0, 0, 0⟩ := by
  unfold finishNew at h
  obtain ⟨tree, -, h⟩ := Res.bind_eq_ok.1 h
  cases h
  dsimp only at he ⊢
  revert he
  unfold Rect.intersect
  dsimp only
  split
  · intro _
    rfl
  · rename_i hne
    intro he
    unfold Rect.empty at hne
    simp only [ge_iff_le, Bool.or_eq_true, decide_eq_true_eq, not_or, not_le] at hne
    exact absurd ⟨Int.le_refl _, hne.1, Int.le_refl _, hne.2⟩ (he _ _)

/-- A tree of a document whose only layer is outside of the canvas. -/
example : ∃ s t, ImportRun 4 4 (Import.start 2 [exDot]) s ∧ s.Done ∧ finishNew (fun n => n) some 8 ⟨100, 100, 104, 104⟩ s = .ok t ∧ ∀ x y, ¬t.rect.Mem x y := by
  obtain ⟨s, r, d, e⟩ := run_fresh (procs := 4) (ts := 4) (flat := [exDot]) (n := 2) (by decide) (fun _ => exDotImage)
    (by rintro l (_ | ⟨_, ⟨⟩⟩); exact exDot_loads)
  suffices h : ∃ t, finishNew (fun n => n) some 8 ⟨100, 100, 104, 104⟩ s = .ok t ∧ t.rect = Rect.zero from h.elim fun t h => ⟨s, t, r, d, h.1, fun x y hm => by
    rw [h.2] at hm
    unfold Rect.Mem Rect.zero at hm
    dsimp only at hm
    omega⟩
  unfold finishNew
  rw [e]
  exact ⟨_, rfl, by dsimp only; decide +kernel⟩

end Psd
