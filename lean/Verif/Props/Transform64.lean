import Verif.Model.Transform64
import Verif.Lemmas.Float64
import Verif.Props.Transform

/-!
# C65 with the arithmetic in floating point
-/

namespace Psd

/-- A matrix whose factors are at most 1024 and whose offsets are at most 2 ^ 30. -/
def Aff3.Moderate (m : Aff3) : Prop :=
  |m.m0| ≤ 1024 ∧ |m.m1| ≤ 1024 ∧ |m.m3| ≤ 1024 ∧ |m.m4| ≤ 1024 ∧ |m.m2| ≤ 2 ^ 30 ∧ |m.m5| ≤ 2 ^ 30

/-- Coordinates of at most 524288 (documents have at most 300000 columns and rows). -/
def Rect.Moderate (r : Rect) : Prop := |r.minX| ≤ 524288 ∧ |r.minY| ≤ 524288 ∧ |r.maxX| ≤ 524288 ∧ |r.maxY| ≤ 524288

/-- One coordinate of a corner, and what is one more, in floating point. -/
theorem corner_near {x y a b c : ℚ} (hx : |x| ≤ 524288) (hy : |y| ≤ 524288) (ha : |a| ≤ 1024) (hb : |b| ≤ 1024) (hc : |c| ≤ 2 ^ 30) :
    |f64 (f64 (f64 (x * a) + f64 (y * b)) + c) - (x * a + y * b + c)| ≤ 1 / 2 ^ 20 ∧
    |f64 (f64 (f64 (f64 (x * a) + f64 (y * b)) + c) + 1) - (x * a + y * b + c + 1)| ≤ 1 / 2 ^ 19 := by
  have p1 : |x * a| ≤ 2 ^ 29 := by
    rw [abs_mul]
    calc |x| * |a| ≤ 524288 * 1024 := mul_le_mul hx ha (abs_nonneg _) (by norm_num)
      _ = _ := by norm_num
  have p2 : |y * b| ≤ 2 ^ 29 := by
    rw [abs_mul]
    calc |y| * |b| ≤ 524288 * 1024 := mul_le_mul hy hb (abs_nonneg _) (by norm_num)
      _ = _ := by norm_num
  have e1 := abs_le.mp (f64_within p1)
  have e2 := abs_le.mp (f64_within p2)
  generalize x * a = u at *
  generalize y * b = v at *
  have b1 := abs_le.mp p1
  have b2 := abs_le.mp p2
  have b3 := abs_le.mp hc
  norm_num at b1 b2 b3 e1 e2
  generalize f64 u = u' at *
  generalize f64 v = v' at *
  have e3 := abs_le.mp (f64_within (x := u' + v') (B := 2 ^ 31) (by rw [abs_le]; norm_num; constructor <;> linarith))
  norm_num at e3
  generalize f64 (u' + v') = w at *
  have e4 := abs_le.mp (f64_within (x := w + c) (B := 2 ^ 32) (by rw [abs_le]; norm_num; constructor <;> linarith))
  norm_num at e4
  generalize f64 (w + c) = z at *
  have e5 := abs_le.mp (f64_within (x := z + 1) (B := 2 ^ 33) (by rw [abs_le]; norm_num; constructor <;> linarith))
  norm_num at e5
  constructor
  · rw [abs_le]
    norm_num
    constructor <;> linarith
  · rw [abs_le]
    norm_num
    constructor <;> linarith

theorem FBox.more64_spec (b : FBox) (d : ℚ × ℚ) : (b.more64 d).xMin ≤ b.xMin ∧ (b.more64 d).xMin ≤ d.1 ∧ (b.more64 d).yMin ≤ b.yMin ∧
    (b.more64 d).yMin ≤ d.2 ∧ b.xMax ≤ (b.more64 d).xMax ∧ f64 (d.1 + 1) ≤ (b.more64 d).xMax ∧ b.yMax ≤ (b.more64 d).yMax ∧ f64 (d.2 + 1) ≤ (b.more64 d).yMax := by
  unfold FBox.more64
  dsimp only
  refine ⟨?_, ?_, ?_, ?_, ?_, ?_, ?_, ?_⟩ <;> split <;> linarith

/-- **C65** (in part), in floating point: for moderate matrices and rectangles, the new rectangle contains the image of every point of every pixel of the old
one, up to 2 ^ -20 of a pixel at its left and upper edges. -/
theorem C65_contains_float_partial (r : Rect) (hr : r.Moderate) (m : Aff3) (hm : m.Moderate) (px py : Int) (hp : r.Mem px py) (x y : ℚ)
    (hx : (px : ℚ) ≤ x ∧ x ≤ px + 1) (hy : (py : ℚ) ≤ y ∧ y ≤ py + 1) :
    ((transformRect64 r m).minX : ℚ) ≤ (m.apply x y).1 + 1 / 2 ^ 20 ∧ (m.apply x y).1 < (transformRect64 r m).maxX ∧
    ((transformRect64 r m).minY : ℚ) ≤ (m.apply x y).2 + 1 / 2 ^ 20 ∧ (m.apply x y).2 < (transformRect64 r m).maxY := by
  obtain ⟨h1, h2, h3, h4⟩ := hp
  have hx0 : (r.minX : ℚ) ≤ x := le_trans (by exact_mod_cast h1) hx.1
  have hx1 : x ≤ (r.maxX : ℚ) := le_trans hx.2 (by exact_mod_cast h2)
  have hy0 : (r.minY : ℚ) ≤ y := le_trans (by exact_mod_cast h3) hy.1
  have hy1 : y ≤ (r.maxY : ℚ) := le_trans hy.2 (by exact_mod_cast h4)
  obtain ⟨q1, q2, q3, q4⟩ := hr
  obtain ⟨k0, k1, k3, k4, k2, k5⟩ := hm
  have q1' : |(r.minX : ℚ)| ≤ 524288 := by exact_mod_cast q1
  have q2' : |(r.minY : ℚ)| ≤ 524288 := by exact_mod_cast q2
  have q3' : |(r.maxX : ℚ)| ≤ 524288 := by exact_mod_cast q3
  have q4' : |(r.maxY : ℚ)| ≤ 524288 := by exact_mod_cast q4
  have near : ∀ u v : ℚ, |u| ≤ 524288 → |v| ≤ 524288 → (m.apply64 u v).1 ≤ (m.apply u v).1 + 1 / 2 ^ 20 ∧ (m.apply u v).1 + 1 - 1 / 2 ^ 19 ≤ f64 ((m.apply64 u v).1 + 1) ∧
      (m.apply64 u v).2 ≤ (m.apply u v).2 + 1 / 2 ^ 20 ∧ (m.apply u v).2 + 1 - 1 / 2 ^ 19 ≤ f64 ((m.apply64 u v).2 + 1) := by
    intro u v hu hv
    obtain ⟨c1, c2⟩ := corner_near hu hv k0 k1 k2
    obtain ⟨c3, c4⟩ := corner_near hu hv k3 k4 k5
    rw [abs_le] at c1 c2 c3 c4
    unfold Aff3.apply64 Aff3.apply
    dsimp only
    refine ⟨by linarith [c1.2], by linarith [c2.1], by linarith [c3.2], by linarith [c4.1]⟩
  have n0 := near _ _ q1' q2'
  have n1 := near _ _ q3' q2'
  have n2 := near _ _ q3' q4'
  have n3 := near _ _ q1' q4'
  obtain ⟨b0, e0⟩ : ∃ b, FBox.first64 (m.apply64 r.minX r.minY) = b := ⟨_, rfl⟩
  obtain ⟨b1, e1⟩ : ∃ b, b0.more64 (m.apply64 r.maxX r.minY) = b := ⟨_, rfl⟩
  obtain ⟨b2, e2⟩ : ∃ b, b1.more64 (m.apply64 r.maxX r.maxY) = b := ⟨_, rfl⟩
  obtain ⟨b3, e3⟩ : ∃ b, b2.more64 (m.apply64 r.minX r.maxY) = b := ⟨_, rfl⟩
  obtain ⟨t1, t2, t3, t4, t5, t6, t7, t8⟩ := FBox.more64_spec b0 (m.apply64 r.maxX r.minY)
  obtain ⟨u1, u2, u3, u4, u5, u6, u7, u8⟩ := FBox.more64_spec b1 (m.apply64 r.maxX r.maxY)
  obtain ⟨v1, v2, v3, v4, v5, v6, v7, v8⟩ := FBox.more64_spec b2 (m.apply64 r.minX r.maxY)
  rw [e1] at t1 t2 t3 t4 t5 t6 t7 t8
  rw [e2] at u1 u2 u3 u4 u5 u6 u7 u8
  rw [e3] at v1 v2 v3 v4 v5 v6 v7 v8
  have s0 : b0.xMin = (m.apply64 r.minX r.minY).1 ∧ b0.yMin = (m.apply64 r.minX r.minY).2 ∧ b0.xMax = f64 ((m.apply64 r.minX r.minY).1 + 1) ∧
      b0.yMax = f64 ((m.apply64 r.minX r.minY).2 + 1) := by
    rw [← e0]
    exact ⟨rfl, rfl, rfl, rfl⟩
  have er : transformRect64 r m = ⟨⌊b3.xMin⌋, ⌊b3.yMin⌋, ⌈b3.xMax⌉, ⌈b3.yMax⌉⟩ := by
    simp only [transformRect64, e0, e1, e2, e3]
  rw [er]
  obtain ⟨s1, s2, s3, s4⟩ := s0
  simp only [Aff3.apply] at n0 n1 n2 n3 ⊢
  generalize m.apply64 r.minX r.minY = d0 at *
  generalize m.apply64 r.maxX r.minY = d1 at *
  generalize m.apply64 r.maxX r.maxY = d2 at *
  generalize m.apply64 r.minX r.maxY = d3 at *
  obtain ⟨w1, w2, w3, w4⟩ := n0
  obtain ⟨x1, x2, x3, x4⟩ := n1
  obtain ⟨y1, y2, y3, y4⟩ := n2
  obtain ⟨z1, z2, z3, z4⟩ := n3
  obtain ⟨a1, a2⟩ := affine_between (a := m.m0) (b := m.m1) (c := m.m2) (x0 := r.minX) (x1 := r.maxX) (y0 := r.minY) (y1 := r.maxY)
    (lo := b3.xMin - 1 / 2 ^ 20) (hi := b3.xMax - 1 + 1 / 2 ^ 19) (by linarith) (by linarith) (by linarith) (by linarith) (by linarith) (by linarith) (by linarith) (by linarith) hx0 hx1 hy0 hy1
  obtain ⟨c1, c2⟩ := affine_between (a := m.m3) (b := m.m4) (c := m.m5) (x0 := r.minX) (x1 := r.maxX) (y0 := r.minY) (y1 := r.maxY)
    (lo := b3.yMin - 1 / 2 ^ 20) (hi := b3.yMax - 1 + 1 / 2 ^ 19) (by linarith) (by linarith) (by linarith) (by linarith) (by linarith) (by linarith) (by linarith) (by linarith) hx0 hx1 hy0 hy1
  have f1 := Int.floor_le b3.xMin
  have f2 := Int.floor_le b3.yMin
  have f3 := Int.le_ceil b3.xMax
  have f4 := Int.le_ceil b3.yMax
  norm_num at a2 c2 a1 c1 ⊢
  refine ⟨by linarith, by linarith, by linarith, by linarith⟩

/-- A number with 16 binary places below `n`. -/
def Places16 (n : Nat) (x : ℚ) : Prop := ∃ k : Int, |k| ≤ n ∧ x = k / 2 ^ 16

/-- A moderate matrix whose numbers have at most 16 binary places, such as moves by whole pixels, mirror images, quarter turns and scaling by halves. -/
def Aff3.Plain (m : Aff3) : Prop :=
  Places16 (2 ^ 26) m.m0 ∧ Places16 (2 ^ 26) m.m1 ∧ Places16 (2 ^ 26) m.m3 ∧ Places16 (2 ^ 26) m.m4 ∧ Places16 (2 ^ 46) m.m2 ∧ Places16 (2 ^ 46) m.m5

theorem corner_exact {x y : Int} {a b c : ℚ} (hx : |x| ≤ 524288) (hy : |y| ≤ 524288) (ha : Places16 (2 ^ 26) a) (hb : Places16 (2 ^ 26) b) (hc : Places16 (2 ^ 46) c) :
    f64 (f64 (f64 (x * a) + f64 (y * b)) + c) = x * a + y * b + c ∧ f64 (x * a + y * b + c + 1) = x * a + y * b + c + 1 := by
  obtain ⟨i, hi, rfl⟩ := ha
  obtain ⟨j, hj, rfl⟩ := hb
  obtain ⟨k, hk, rfl⟩ := hc
  have p1 : |x * i| ≤ 2 ^ 45 := by
    rw [abs_mul]
    calc |x| * |i| ≤ 524288 * 2 ^ 26 := Int.mul_le_mul hx (by exact_mod_cast hi) (abs_nonneg _) (by norm_num)
      _ = _ := by norm_num
  have p2 : |y * j| ≤ 2 ^ 45 := by
    rw [abs_mul]
    calc |y| * |j| ≤ 524288 * 2 ^ 26 := Int.mul_le_mul hy (by exact_mod_cast hj) (abs_nonneg _) (by norm_num)
      _ = _ := by norm_num
  have hk' : |k| ≤ 2 ^ 46 := by exact_mod_cast hk
  rw [abs_le] at p1 p2 hk'
  have q1 : -(2 ^ 53) < x * i ∧ x * i < 2 ^ 53 := by constructor <;> linarith
  have q2 : -(2 ^ 53) < y * j ∧ y * j < 2 ^ 53 := by constructor <;> linarith
  have q3 : -(2 ^ 53) < x * i + y * j ∧ x * i + y * j < 2 ^ 53 := by constructor <;> linarith
  have q4 : -(2 ^ 53) < x * i + y * j + k ∧ x * i + y * j + k < 2 ^ 53 := by constructor <;> linarith
  have q5 : -(2 ^ 53) < x * i + y * j + k + 2 ^ 16 ∧ x * i + y * j + k + 2 ^ 16 < 2 ^ 53 := by constructor <;> linarith
  rw [f64_exact (x := (x : ℚ) * (i / 2 ^ 16)) (x * i) 16 (abs_lt.mpr q1) (by push_cast; ring),
    f64_exact (x := (y : ℚ) * (j / 2 ^ 16)) (y * j) 16 (abs_lt.mpr q2) (by push_cast; ring),
    f64_exact (x := (x : ℚ) * (i / 2 ^ 16) + y * (j / 2 ^ 16)) (x * i + y * j) 16 (abs_lt.mpr q3) (by push_cast; ring),
    f64_exact (x := (x : ℚ) * (i / 2 ^ 16) + y * (j / 2 ^ 16) + k / 2 ^ 16) (x * i + y * j + k) 16 (abs_lt.mpr q4) (by push_cast; ring)]
  exact ⟨rfl, f64_exact (x * i + y * j + k + 2 ^ 16) 16 (abs_lt.mpr q5) (by push_cast; ring)⟩

/-- For plain matrices nothing is rounded: what is proved of `transformRect` with exact numbers holds of the code. -/
theorem C65_float_exact (r : Rect) (hr : r.Moderate) (m : Aff3) (hm : m.Plain) : transformRect64 r m = transformRect r m := by
  obtain ⟨q1, q2, q3, q4⟩ := hr
  obtain ⟨k0, k1, k3, k4, k2, k5⟩ := hm
  have key : ∀ u v : Int, |u| ≤ 524288 → |v| ≤ 524288 → m.apply64 u v = m.apply u v ∧ f64 ((m.apply u v).1 + 1) = (m.apply u v).1 + 1 ∧ f64 ((m.apply u v).2 + 1) = (m.apply u v).2 + 1 := by
    intro u v hu hv
    obtain ⟨c1, c2⟩ := corner_exact hu hv k0 k1 k2
    obtain ⟨c3, c4⟩ := corner_exact hu hv k3 k4 k5
    unfold Aff3.apply64 Aff3.apply
    exact ⟨Prod.ext c1 c3, c2, c4⟩
  have n0 := key _ _ q1 q2
  have n1 := key _ _ q3 q2
  have n2 := key _ _ q3 q4
  have n3 := key _ _ q1 q4
  unfold transformRect64 transformRect FBox.first64 FBox.first FBox.more64 FBox.more
  simp only [n0.1, n1.1, n2.1, n3.1, n0.2, n1.2, n2.2, n3.2]

/-- **C65** is false of the identity in floating point, too. -/
theorem C65_identity_grows_float (r : Rect) (hr : r.Moderate) (h : r.minX ≤ r.maxX ∧ r.minY ≤ r.maxY) :
    transformRect64 r ⟨1, 0, 0, 0, 1, 0⟩ = ⟨r.minX, r.minY, r.maxX + 1, r.maxY + 1⟩ := by
  rw [C65_float_exact r hr _ ?_, C65_identity_grows r h]
  have p0 : ∀ n, Places16 n 0 := fun n => ⟨0, by simp, by norm_num⟩
  have p1 : Places16 (2 ^ 26) 1 := ⟨65536, by norm_num, by norm_num⟩
  exact ⟨p1, p0 _, p0 _, p1, p0 _, p0 _⟩

/-- A turn by some angle, with the nearest floats to 4/5 and 3/5 (the rectangle's corner at (7, 9) goes to about (0.2, 11.4)). -/
example : (⟨7, 9, 107, 109⟩ : Rect).Moderate ∧ (⟨f64 (4 / 5), f64 (-3 / 5), 0, f64 (3 / 5), f64 (4 / 5), 0⟩ : Aff3).Moderate ∧ (⟨7, 9, 107, 109⟩ : Rect).Mem 7 9 ∧
    transformRect64 ⟨7, 9, 107, 109⟩ ⟨f64 (4 / 5), f64 (-3 / 5), 0, f64 (3 / 5), f64 (4 / 5), 0⟩ = ⟨-60, 11, 82, 153⟩ := by
  refine ⟨?_, ?_, ?_, ?_⟩
  · unfold Rect.Moderate; decide +kernel
  · unfold Aff3.Moderate; decide +kernel
  · decide
  · decide +kernel

/-- A quarter turn and a scaling by 3/2. -/
example : (⟨0, -1, 300, 1, 0, 0⟩ : Aff3).Plain ∧ (⟨3 / 2, 0, 0, 0, 3 / 2, 1 / 4⟩ : Aff3).Plain := by
  have p0 : ∀ n, Places16 n 0 := fun n => ⟨0, by simp, by norm_num⟩
  exact ⟨⟨p0 _, ⟨-65536, by norm_num, by norm_num⟩, ⟨65536, by norm_num, by norm_num⟩, p0 _, ⟨300 * 65536, by norm_num, by norm_num⟩, p0 _⟩,
    ⟨98304, by norm_num, by norm_num⟩, p0 _, p0 _, ⟨98304, by norm_num, by norm_num⟩, p0 _, ⟨16384, by norm_num, by norm_num⟩⟩

end Psd
