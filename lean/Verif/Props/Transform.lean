import Verif.Model.Transform
import Mathlib.Tactic.Linarith
import Mathlib.Tactic.Ring
import Mathlib.Tactic.Positivity
import Mathlib.Tactic.NormNum

/-!
# Theorem C65: transforming rectangles
-/

namespace Psd

theorem FBox.more_spec (b : FBox) (d : ℚ × ℚ) : (b.more d).xMin ≤ b.xMin ∧ (b.more d).xMin ≤ d.1 ∧ (b.more d).yMin ≤ b.yMin ∧
    (b.more d).yMin ≤ d.2 ∧ b.xMax ≤ (b.more d).xMax ∧ d.1 + 1 ≤ (b.more d).xMax ∧ b.yMax ≤ (b.more d).yMax ∧ d.2 + 1 ≤ (b.more d).yMax := by
  unfold FBox.more
  dsimp only
  refine ⟨?_, ?_, ?_, ?_, ?_, ?_, ?_, ?_⟩ <;> split <;> linarith

/-- An affine function on a rectangle lies between bounds of its values at the corners. -/
theorem affine_between {a b c x0 x1 y0 y1 lo hi : ℚ} (h1 : lo ≤ x0 * a + y0 * b + c) (h2 : lo ≤ x1 * a + y0 * b + c)
    (h3 : lo ≤ x1 * a + y1 * b + c) (h4 : lo ≤ x0 * a + y1 * b + c) (g1 : x0 * a + y0 * b + c ≤ hi) (g2 : x1 * a + y0 * b + c ≤ hi)
    (g3 : x1 * a + y1 * b + c ≤ hi) (g4 : x0 * a + y1 * b + c ≤ hi) {x y : ℚ} (hx0 : x0 ≤ x) (hx1 : x ≤ x1) (hy0 : y0 ≤ y) (hy1 : y ≤ y1) :
    lo ≤ x * a + y * b + c ∧ x * a + y * b + c ≤ hi := by
  rcases le_total 0 a with ha | ha <;> rcases le_total 0 b with hb | hb
  · have e1 := mul_le_mul_of_nonneg_right hx0 ha
    have e2 := mul_le_mul_of_nonneg_right hx1 ha
    have e3 := mul_le_mul_of_nonneg_right hy0 hb
    have e4 := mul_le_mul_of_nonneg_right hy1 hb
    constructor <;> linarith
  · have e1 := mul_le_mul_of_nonneg_right hx0 ha
    have e2 := mul_le_mul_of_nonneg_right hx1 ha
    have e3 := mul_le_mul_of_nonpos_right hy0 hb
    have e4 := mul_le_mul_of_nonpos_right hy1 hb
    constructor <;> linarith
  · have e1 := mul_le_mul_of_nonpos_right hx0 ha
    have e2 := mul_le_mul_of_nonpos_right hx1 ha
    have e3 := mul_le_mul_of_nonneg_right hy0 hb
    have e4 := mul_le_mul_of_nonneg_right hy1 hb
    constructor <;> linarith
  · have e1 := mul_le_mul_of_nonpos_right hx0 ha
    have e2 := mul_le_mul_of_nonpos_right hx1 ha
    have e3 := mul_le_mul_of_nonpos_right hy0 hb
    have e4 := mul_le_mul_of_nonpos_right hy1 hb
    constructor <;> linarith

/-- **C65** (in part) For every affine map the new rectangle contains the image of every point of every pixel of the old
one; the pixel `(px, py)` is the square from `(px, py)` to `(px + 1, py + 1)`.

Missing: that the identity keeps rectangles, which is false (`C65_identity_grows`). -/
theorem C65_contains_partial (r : Rect) (m : Aff3) (px py : Int) (hp : r.Mem px py) (x y : ℚ)
    (hx : (px : ℚ) ≤ x ∧ x ≤ px + 1) (hy : (py : ℚ) ≤ y ∧ y ≤ py + 1) :
    ((transformRect r m).minX : ℚ) ≤ (m.apply x y).1 ∧ (m.apply x y).1 < (transformRect r m).maxX ∧
    ((transformRect r m).minY : ℚ) ≤ (m.apply x y).2 ∧ (m.apply x y).2 < (transformRect r m).maxY := by
  obtain ⟨h1, h2, h3, h4⟩ := hp
  have hx0 : (r.minX : ℚ) ≤ x := le_trans (by exact_mod_cast h1) hx.1
  have hx1 : x ≤ (r.maxX : ℚ) := le_trans hx.2 (by exact_mod_cast h2)
  have hy0 : (r.minY : ℚ) ≤ y := le_trans (by exact_mod_cast h3) hy.1
  have hy1 : y ≤ (r.maxY : ℚ) := le_trans hy.2 (by exact_mod_cast h4)
  obtain ⟨b0, e0⟩ : ∃ b, FBox.first (m.apply r.minX r.minY) = b := ⟨_, rfl⟩
  obtain ⟨b1, e1⟩ : ∃ b, b0.more (m.apply r.maxX r.minY) = b := ⟨_, rfl⟩
  obtain ⟨b2, e2⟩ : ∃ b, b1.more (m.apply r.maxX r.maxY) = b := ⟨_, rfl⟩
  obtain ⟨b3, e3⟩ : ∃ b, b2.more (m.apply r.minX r.maxY) = b := ⟨_, rfl⟩
  have s1 := FBox.more_spec b0 (m.apply r.maxX r.minY)
  have s2 := FBox.more_spec b1 (m.apply r.maxX r.maxY)
  have s3 := FBox.more_spec b2 (m.apply r.minX r.maxY)
  rw [e1] at s1
  rw [e2] at s2
  rw [e3] at s3
  have s0 : b0.xMin = (m.apply r.minX r.minY).1 ∧ b0.yMin = (m.apply r.minX r.minY).2 ∧ b0.xMax = (m.apply r.minX r.minY).1 + 1 ∧
      b0.yMax = (m.apply r.minX r.minY).2 + 1 := by
    rw [← e0]
    exact ⟨rfl, rfl, rfl, rfl⟩
  have er : transformRect r m = ⟨⌊b3.xMin⌋, ⌊b3.yMin⌋, ⌈b3.xMax⌉, ⌈b3.yMax⌉⟩ := by
    simp only [transformRect, e0, e1, e2, e3]
  rw [er]
  simp only [Aff3.apply] at s0 s1 s2 s3 ⊢
  obtain ⟨a1, a2⟩ := affine_between (a := m.m0) (b := m.m1) (c := m.m2) (x0 := r.minX) (x1 := r.maxX) (y0 := r.minY) (y1 := r.maxY)
    (lo := b3.xMin) (hi := b3.xMax - 1) (by linarith [s0.1, s1.1, s2.1, s3.1]) (by linarith [s1.2.1, s2.1, s3.1])
    (by linarith [s2.2.1, s3.1]) (by linarith [s3.2.1]) (by linarith [s0.2.2.1, s1.2.2.2.2.1, s2.2.2.2.2.1, s3.2.2.2.2.1])
    (by linarith [s1.2.2.2.2.2.1, s2.2.2.2.2.1, s3.2.2.2.2.1]) (by linarith [s2.2.2.2.2.2.1, s3.2.2.2.2.1])
    (by linarith [s3.2.2.2.2.2.1]) hx0 hx1 hy0 hy1
  obtain ⟨c1, c2⟩ := affine_between (a := m.m3) (b := m.m4) (c := m.m5) (x0 := r.minX) (x1 := r.maxX) (y0 := r.minY) (y1 := r.maxY)
    (lo := b3.yMin) (hi := b3.yMax - 1) (by linarith [s0.2.1, s1.2.2.1, s2.2.2.1, s3.2.2.1]) (by linarith [s1.2.2.2.1, s2.2.2.1, s3.2.2.1])
    (by linarith [s2.2.2.2.1, s3.2.2.1]) (by linarith [s3.2.2.2.1])
    (by linarith [s0.2.2.2, s1.2.2.2.2.2.2.1, s2.2.2.2.2.2.2.1, s3.2.2.2.2.2.2.1])
    (by linarith [s1.2.2.2.2.2.2.2, s2.2.2.2.2.2.2.1, s3.2.2.2.2.2.2.1]) (by linarith [s2.2.2.2.2.2.2.2, s3.2.2.2.2.2.2.1])
    (by linarith [s3.2.2.2.2.2.2.2]) hx0 hx1 hy0 hy1
  have f1 := Int.floor_le b3.xMin
  have f2 := Int.floor_le b3.yMin
  have f3 := Int.le_ceil b3.xMax
  have f4 := Int.le_ceil b3.yMax
  refine ⟨by linarith, by linarith, by linarith, by linarith⟩

/-- A quarter turn of a pixel away from the origin. -/
example : (⟨-2, 1, 3, 4⟩ : Rect).Mem 2 3 ∧ ((2 : Int) : ℚ) ≤ 5 / 2 ∧ (Aff3.mk 0 (-1) 0 1 0 0).apply (5 / 2) 3 = (-3, 5 / 2) := by
  refine ⟨by decide, by norm_num, ?_⟩
  simp only [Aff3.apply]
  norm_num

/-- **C65** is false of the identity: every rectangle grows by one column and one row. `New` applies this to the canvas
of every document. -/
theorem C65_identity_grows (r : Rect) (h : r.minX ≤ r.maxX ∧ r.minY ≤ r.maxY) :
    transformRect r ⟨1, 0, 0, 0, 1, 0⟩ = ⟨r.minX, r.minY, r.maxX + 1, r.maxY + 1⟩ := by
  have hx : (r.minX : ℚ) ≤ r.maxX := by exact_mod_cast h.1
  have hy : (r.minY : ℚ) ≤ r.maxY := by exact_mod_cast h.2
  have e : ∀ x y : ℚ, (Aff3.mk 1 0 0 0 1 0).apply x y = (x, y) := by
    intro x y
    simp [Aff3.apply]
  have m1 : ∀ a b : ℚ, a ≤ b → ¬ (a > b) := fun a b h => not_lt.2 h
  have k1 : (if (r.maxX : ℚ) < r.maxX + 1 then (r.maxX : ℚ) + 1 else r.maxX) = r.maxX + 1 := if_pos (by linarith)
  simp only [transformRect, e, FBox.first, FBox.more]
  have hx' : ¬ ((r.minX : ℚ) > r.maxX) := m1 _ _ hx
  have hy' : ¬ ((r.minY : ℚ) > r.maxY) := m1 _ _ hy
  have hmx : (if (r.minX : ℚ) + 1 < r.maxX + 1 then (r.maxX : ℚ) + 1 else r.minX + 1) = r.maxX + 1 := by
    split
    · rfl
    · linarith
  have hmy : (if (r.minY : ℚ) + 1 < r.maxY + 1 then (r.maxY : ℚ) + 1 else r.minY + 1) = r.maxY + 1 := by
    split
    · rfl
    · linarith
  have hmx2 : ¬ ((r.maxX : ℚ) + 1 < r.minX + 1) := by linarith
  simp only [hx', hy', if_false, hmx, hmy, hmx2, gt_iff_lt, lt_self_iff_false]
  have c1 : ∀ z : Int, ⌈(z : ℚ) + 1⌉ = z + 1 := by
    intro z
    rw [Int.ceil_add_one, Int.ceil_intCast]
  simp only [Int.floor_intCast, c1]

end Psd
