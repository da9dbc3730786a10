import Verif.Model.Sqrt64
import Verif.Lemmas.Chan16
import Mathlib.Tactic.Linarith
import Mathlib.Tactic.Ring
import Mathlib.Tactic.NormNum
import Mathlib.Tactic.Positivity
import Mathlib.Tactic.FieldSimp
import Mathlib.Tactic.NormNum.Prime

/-
Rounding of real numbers to 53 bits, and the square root in floating point.
-/

namespace Psd

theorem roundEvenReal_int (n : Int) : roundEvenReal n = n := by
  unfold roundEvenReal
  rw [Int.floor_intCast, sub_self, if_pos (by norm_num)]

theorem roundEvenReal_near (x : ℝ) : |(roundEvenReal x : ℝ) - x| ≤ 1 / 2 := by
  have h1 := Int.floor_le x
  have h2 := Int.lt_floor_add_one x
  unfold roundEvenReal
  split
  · rename_i h
    rw [abs_le]
    constructor <;> linarith
  · rename_i h
    push Not at h
    split
    · push_cast
      rw [abs_le]
      constructor <;> linarith
    · rename_i h'
      push Not at h'
      split
      · rw [abs_le]
        constructor <;> linarith
      · push_cast
        rw [abs_le]
        constructor <;> linarith

/-- Integers with at most 53 bits are left as they are. -/
theorem f64Real_nat {n : Nat} (hn : n < 2 ^ 53) : f64Real n = n := by
  unfold f64Real
  by_cases h0 : (n : ℝ) = 0
  · rw [if_pos h0, h0]
  rw [if_neg h0]
  have h1 : n ≠ 0 := by exact_mod_cast h0
  have habs : |(n : ℝ)| = n := abs_of_nonneg (Nat.cast_nonneg n)
  rw [habs, Int.log_natCast]
  obtain ⟨L, eL⟩ : ∃ L, L = Nat.log 2 n := ⟨_, rfl⟩
  have hL : L ≤ 52 := by
    have := Nat.log_lt_of_lt_pow h1 hn
    omega
  rw [← eL]
  have e : (n : ℝ) / 2 ^ ((L : Int) - 52) = ((n * 2 ^ (52 - L) : Int) : ℝ) := by
    rw [show (L : Int) - 52 = -((52 - L : Nat) : Int) by omega, zpow_neg, zpow_natCast, div_inv_eq_mul]
    push_cast
    rfl
  rw [e, roundEvenReal_int, ← e, div_mul_cancel₀ _ (zpow_ne_zero _ (by norm_num))]

/-- The error is at most half a unit in the last of 53 bits. -/
theorem f64Real_near (x : ℝ) : |f64Real x - x| ≤ |x| / 2 ^ 53 := by
  unfold f64Real
  by_cases h0 : x = 0
  · rw [if_pos h0, h0]
    norm_num
  rw [if_neg h0]
  have hL := Int.zpow_log_le_self (b := 2) (r := |x|) (by norm_num) (abs_pos.mpr h0)
  obtain ⟨L, eL⟩ : ∃ L, L = Int.log 2 |x| := ⟨_, rfl⟩
  rw [← eL] at hL ⊢
  have p : (0 : ℝ) < 2 ^ (L - 52) := zpow_pos (by norm_num) _
  have e : (roundEvenReal (x / 2 ^ (L - 52)) : ℝ) * 2 ^ (L - 52) - x = (roundEvenReal (x / 2 ^ (L - 52)) - x / 2 ^ (L - 52)) * 2 ^ (L - 52) := by
    rw [sub_mul, div_mul_cancel₀ _ p.ne']
  rw [e, abs_mul, abs_of_pos p]
  have hr := roundEvenReal_near (x / 2 ^ (L - 52))
  have e2 : (2 : ℝ) ^ (L - 52) = 2 ^ L / 2 ^ 52 := by
    rw [zpow_sub₀ (by norm_num)]
    norm_cast
  have hL' : (2 : ℝ) ^ L ≤ |x| := by exact_mod_cast hL
  calc _ ≤ 1 / 2 * (2 : ℝ) ^ (L - 52) := mul_le_mul_of_nonneg_right hr p.le
    _ = 2 ^ L / 2 ^ 53 := by rw [e2]; ring
    _ ≤ _ := div_le_div_of_nonneg_right hL' (by positivity)

/-- The rounding error of the whole expression. -/
theorem sqrt64_error {a b : ℝ} (ha : 0 < a) (hab : a ≤ b) :
    |f64Real (f64Real √(f64Real (a / b)) * b) - √(a * b)| ≤ 8 * b / 2 ^ 53 := by
  have hb : 0 < b := lt_of_lt_of_le ha hab
  obtain ⟨q, hq⟩ : ∃ q, q = a / b := ⟨_, rfl⟩
  rw [← hq]
  have q0 : 0 < q := hq ▸ div_pos ha hb
  have q1 : q ≤ 1 := hq ▸ (div_le_one hb).mpr hab
  have e1 := f64Real_near q
  obtain ⟨p, hp⟩ : ∃ p, p = f64Real q := ⟨_, rfl⟩
  rw [← hp] at e1 ⊢
  rw [abs_of_pos q0] at e1
  obtain ⟨e1l, e1u⟩ := abs_le.mp e1
  have p0 : 0 < p := by norm_num at e1l e1u; linarith
  have sq : √q * √q = q := Real.mul_self_sqrt q0.le
  have sp : √p * √p = p := Real.mul_self_sqrt p0.le
  have u0 : 0 < √q := Real.sqrt_pos.mpr q0
  have v0 : 0 < √p := Real.sqrt_pos.mpr p0
  have u1 : √q ≤ 1 := Real.sqrt_le_one.mpr q1
  have hS : √(a * b) = √q * b := by
    rw [show a * b = q * (b * b) by rw [hq]; field_simp, Real.sqrt_mul q0.le, Real.sqrt_mul_self hb.le]
  rw [hS]
  generalize √q = u at *
  generalize √p = v at *
  have e2 : |v - u| ≤ 1 / 2 ^ 53 := by
    rw [abs_le]
    norm_num at e1l e1u ⊢
    constructor <;> nlinarith
  have e3 := f64Real_near v
  generalize f64Real v = w at *
  rw [abs_of_pos v0] at e3
  have e4 := f64Real_near (w * b)
  generalize f64Real (w * b) = z at *
  obtain ⟨e2l, e2u⟩ := abs_le.mp e2
  obtain ⟨e3l, e3u⟩ := abs_le.mp e3
  have w0 : 0 < w := by norm_num at e3l; linarith
  have w2 : w ≤ 2 := by norm_num at e3u e2u; linarith
  rw [abs_of_pos (mul_pos w0 hb)] at e4
  obtain ⟨e4l, e4u⟩ := abs_le.mp e4
  rw [abs_le]
  norm_num at e2l e2u e3l e3u e4l e4u ⊢
  have h1 : (w - u) * b ≤ 5 / 9007199254740992 * b := mul_le_mul_of_nonneg_right (by linarith) hb.le
  have h2 : -(5 / 9007199254740992) * b ≤ (w - u) * b := mul_le_mul_of_nonneg_right (by linarith) hb.le
  have h3 : w * b ≤ 2 * b := mul_le_mul_of_nonneg_right w2 hb.le
  constructor <;> linarith

/-- A product with a number that is not a square. -/
theorem not_square {a b r : Nat} (hb : b = 255 ∨ b = 65535) (ha : 0 < a) (hab : a < b) : r * r ≠ a * b := by
  intro h
  have dvd (p : Nat) (hp : p.Prime) (hd : p ∣ b) : p ∣ r := by
    rcases hp.dvd_mul.mp (h ▸ Dvd.dvd.mul_left hd a : p ∣ r * r) with h | h <;> exact h
  have key : b ∣ r := by
    rcases hb with rfl | rfl
    · have h3 := dvd 3 (by norm_num) (by norm_num)
      have h5 := dvd 5 (by norm_num) (by norm_num)
      have h17 := dvd 17 (by norm_num) (by norm_num)
      exact Nat.Coprime.mul_dvd_of_dvd_of_dvd (m := 15) (by decide) (Nat.Coprime.mul_dvd_of_dvd_of_dvd (by decide) h3 h5) h17
    · have h3 := dvd 3 (by norm_num) (by norm_num)
      have h5 := dvd 5 (by norm_num) (by norm_num)
      have h17 := dvd 17 (by norm_num) (by norm_num)
      have h257 := dvd 257 (by norm_num) (by norm_num)
      exact Nat.Coprime.mul_dvd_of_dvd_of_dvd (m := 255) (by decide) (Nat.Coprime.mul_dvd_of_dvd_of_dvd (m := 15) (by decide)
        (Nat.Coprime.mul_dvd_of_dvd_of_dvd (by decide) h3 h5) h17) h257
  obtain ⟨j, rfl⟩ := key
  have b0 : 0 < b := by omega
  have e : b * (j * j) = a := by
    apply Nat.eq_of_mul_eq_mul_right b0
    rw [← h]
    ring
  rcases Nat.eq_zero_or_pos j with rfl | hj
  · omega
  · have : b * 1 ≤ b * (j * j) := Nat.mul_le_mul_left b (Nat.mul_pos hj hj)
    omega

/-- The code computes the integer square root. -/
theorem sqrt64_eq {a b : UInt32} (hb : b = 0xff ∨ b = 0xffff) (hab : a ≤ b) : sqrt64 a b = sqrtU32 a b := by
  have hab' : a.toNat ≤ b.toNat := hab
  have hb' : b.toNat = 255 ∨ b.toNat = 65535 := by rcases hb with rfl | rfl <;> [left; right] <;> rfl
  unfold sqrt64 sqrtU32
  congr 1
  generalize a.toNat = m at *
  generalize b.toNat = n at *
  have hn : n ≤ 65535 := by omega
  have hmn : m * n ≤ 65535 * 65535 := Nat.mul_le_mul (by omega) hn
  obtain ⟨h1, h2⟩ := isqrt_spec (m * n) (by omega)
  generalize sqrtU32.isqrt (m * n) = r at *
  have n0 : (n : ℝ) ≠ 0 := by exact_mod_cast (show n ≠ 0 by omega)
  have f0 : f64Real 0 = 0 := by exact_mod_cast f64Real_nat (n := 0) (by norm_num)
  have f1 : f64Real 1 = 1 := by exact_mod_cast f64Real_nat (n := 1) (by norm_num)
  rcases Nat.eq_zero_or_pos m with rfl | hm
  · have r0 : r = 0 := by
      rcases Nat.eq_zero_or_pos r with h | h
      · exact h
      · have := Nat.mul_pos h h
        omega
    simp [f0, r0]
  rcases Nat.lt_or_ge m n with hlt | hge
  · have hne := not_square (r := r) hb' hm hlt
    have hne' := not_square (r := r + 1) hb' hm hlt
    have l1 : r * r + 1 ≤ m * n := by omega
    have l2 : m * n + 1 ≤ (r + 1) * (r + 1) := by omega
    have hr : r ≤ 65535 := by
      by_contra hc
      have := Nat.mul_le_mul (show 65536 ≤ r by omega) (show 65536 ≤ r by omega)
      omega
    have er := sqrt64_error (a := m) (b := n) (by exact_mod_cast hm) (by exact_mod_cast hab')
    have sS : √((m : ℝ) * n) * √((m : ℝ) * n) = m * n := Real.mul_self_sqrt (by positivity)
    have S0 : 0 ≤ √((m : ℝ) * n) := Real.sqrt_nonneg _
    have l1' : (r : ℝ) * r + 1 ≤ m * n := by exact_mod_cast l1
    have l2' : (m : ℝ) * n + 1 ≤ (r + 1) * (r + 1) := by exact_mod_cast l2
    have hr' : (r : ℝ) ≤ 65535 := by exact_mod_cast hr
    have hn' : (n : ℝ) ≤ 65535 := by exact_mod_cast hn
    have r0 : (0 : ℝ) ≤ r := Nat.cast_nonneg r
    generalize √((m : ℝ) * n) = S at *
    generalize f64Real (f64Real √(f64Real ((m : ℝ) / n)) * n) = v at *
    generalize (m : ℝ) * n = N at *
    have hS1 : S < r + 1 := by
      by_contra hc
      push Not at hc
      nlinarith
    have hS0 : (r : ℝ) < S := by
      by_contra hc
      push Not at hc
      nlinarith
    obtain ⟨e1, e2⟩ := abs_le.mp er
    norm_num at e1 e2
    have g1 : (r : ℝ) + 1 / 131072 ≤ S := by nlinarith
    have g2 : S + 1 / 131072 ≤ r + 1 := by nlinarith
    rw [Nat.floor_eq_iff (by linarith)]
    constructor <;> linarith
  · have : m = n := by omega
    subst this
    have rm : r = m := by
      rcases Nat.lt_trichotomy r m with h | h | h
      · have := Nat.mul_le_mul (show r + 1 ≤ m by omega) (show r + 1 ≤ m by omega)
        omega
      · exact h
      · have := Nat.mul_le_mul (show m + 1 ≤ r by omega) (show m + 1 ≤ r by omega)
        have e : (m + 1) * (m + 1) = m * m + 2 * m + 1 := by ring
        omega
    rw [div_self n0, f1, Real.sqrt_one, f1, one_mul, f64Real_nat (by omega), Nat.floor_natCast, rm]

end Psd
