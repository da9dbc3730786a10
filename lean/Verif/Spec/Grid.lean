import Verif.Model.Basic

/-!
# Which pixels of an area are on tiles
-/

namespace Psd

/-- There is a line of the tile grid, of cells of side `ts`, between the edge `v` and the pixel `x`; or the edge is not negative. -/
def Crossed (ts : Nat) (v x : Int) : Prop := 0 ≤ v ∨ ∃ k : Int, v ≤ k * ts ∧ k * ts ≤ x

/-- `(x, y)` is a pixel of the area `r`, and not left of the first grid line that comes after a negative left edge, nor above the first one that comes
after a negative upper edge. All pixels of `r` with coordinates that are not negative are such pixels (`Rect.keeps_of_canvas`). -/
def Rect.Keeps (ts : Nat) (r : Rect) (x y : Int) : Prop := r.Mem x y ∧ Crossed ts r.minX x ∧ Crossed ts r.minY y

/-- The first grid line from `v` on is `-((-v) / ts) * ts`. -/
instance (ts : Nat) (v x : Int) : Decidable (Crossed ts v x) :=
  decidable_of_iff (0 ≤ v ∨ v ≤ -((-v) / ts) * ts ∧ -((-v) / ts) * ts ≤ x) <| by
    refine or_congr Iff.rfl ⟨fun h => ⟨_, h.1, h.2⟩, ?_⟩
    rintro ⟨k, h1, h2⟩
    by_cases h0 : ts = 0
    · subst h0
      exact ⟨by simpa using h1, by simpa using h2⟩
    · have a : -k ≤ (-v) / ts := Int.le_ediv_of_mul_le (by omega) (by rw [Int.neg_mul]; omega)
      have b := Int.ediv_mul_le (-v) (b := (ts : Int)) (by omega)
      refine ⟨by rw [Int.neg_mul]; omega, Int.le_trans (Int.mul_le_mul_of_nonneg_right (show -((-v) / (ts : Int)) ≤ k by omega) (by omega)) h2⟩

instance (ts : Nat) (r : Rect) (x y : Int) : Decidable (r.Keeps ts x y) := inferInstanceAs (Decidable (_ ∧ _ ∧ _))

/-- The pixels of the canvas are kept. -/
theorem Rect.keeps_of_canvas {ts : Nat} {r : Rect} {x y : Int} (h : r.Mem x y) (hx : 0 ≤ x) (hy : 0 ≤ y) : r.Keeps ts x y := by
  have key : ∀ v x : Int, 0 ≤ x → Crossed ts v x := fun v x h => by
    by_cases h0 : 0 ≤ v
    · exact .inl h0
    · exact .inr ⟨0, by omega, by omega⟩
  exact ⟨h, key _ _ hx, key _ _ hy⟩

end Psd
