import Verif.Model.Float64
import Mathlib.Tactic.Linarith
import Mathlib.Tactic.Ring
import Mathlib.Tactic.NormNum
import Mathlib.Tactic.Positivity
import Mathlib.Tactic.FieldSimp

/-
Rounding to 53 bits.
-/

namespace Psd

theorem roundEven_int (n : Int) : roundEven n = n := by
  unfold roundEven
  rw [Int.floor_intCast, sub_self, if_pos (by norm_num)]

theorem roundEven_near (x : ℚ) : |(roundEven x : ℚ) - x| ≤ 1 / 2 := by
  have h1 := Int.floor_le x
  have h2 := Int.lt_floor_add_one x
  unfold roundEven
  split
  · rename_i h
    rw [abs_le]
    constructor <;> linarith
  · rename_i h
    push Not at h
    split
    · push_cast
      rw [abs_le]
      constructor <;> linarith
    · rename_i h'
      push Not at h'
      split
      · rw [abs_le]
        constructor <;> linarith
      · push_cast
        rw [abs_le]
        constructor <;> linarith

/-- Numbers with at most 53 bits are left as they are. -/
theorem f64_exact {x : ℚ} (m : Int) (k : Nat) (hm : |m| < 2 ^ 53) (hx : x = m / 2 ^ k) : f64 x = x := by
  unfold f64
  by_cases h0 : x = 0
  · rw [if_pos h0, h0]
  rw [if_neg h0]
  have hL := Int.zpow_log_le_self (b := 2) (r := |x|) (by norm_num) (abs_pos.mpr h0)
  obtain ⟨L, eL⟩ : ∃ L, L = Int.log 2 |x| := ⟨_, rfl⟩
  rw [← eL] at hL ⊢
  have k0 : (0 : ℚ) < 2 ^ k := by positivity
  have hxa : |x| = |(m : ℚ)| / 2 ^ k := by rw [hx, abs_div, abs_of_pos k0]
  have hle : L + k ≤ 52 := by
    by_contra hc
    push Not at hc
    have h53 : (2 : ℚ) ^ (53 : Int) ≤ 2 ^ (L + k) := zpow_le_zpow_right₀ (by norm_num) (by omega)
    rw [zpow_add₀ (by norm_num)] at h53
    have : (2 : ℚ) ^ L * 2 ^ (k : Int) ≤ |(m : ℚ)| := by
      rw [hxa] at hL
      rw [zpow_natCast]
      calc (2 : ℚ) ^ L * 2 ^ k = ((2 : Nat) : ℚ) ^ L * 2 ^ k := by norm_num
        _ ≤ |(m : ℚ)| / 2 ^ k * 2 ^ k := mul_le_mul_of_nonneg_right hL k0.le
        _ = _ := div_mul_cancel₀ _ k0.ne'
    have hm' : |(m : ℚ)| < 2 ^ 53 := by exact_mod_cast hm
    have e53 : (2 : ℚ) ^ (53 : Int) = 2 ^ 53 := by norm_cast
    rw [e53] at h53
    linarith
  obtain ⟨n, hn⟩ : ∃ n : Nat, (n : Int) = 52 - L - k := ⟨(52 - L - k).toNat, by omega⟩
  have e : x / 2 ^ (L - 52) = ((m * 2 ^ n : Int) : ℚ) := by
    rw [hx, div_div, ← zpow_natCast, ← zpow_add₀ (by norm_num), show (k : Int) + (L - 52) = -n by omega, zpow_neg, zpow_natCast]
    push_cast
    rw [div_inv_eq_mul]
  rw [e, roundEven_int, ← e, div_mul_cancel₀ _ (zpow_ne_zero _ (by norm_num))]

/-- The error is at most half a unit in the last of 53 bits. -/
theorem f64_near (x : ℚ) : |f64 x - x| ≤ |x| / 2 ^ 53 := by
  unfold f64
  by_cases h0 : x = 0
  · rw [if_pos h0, h0]
    norm_num
  rw [if_neg h0]
  have hL := Int.zpow_log_le_self (b := 2) (r := |x|) (by norm_num) (abs_pos.mpr h0)
  obtain ⟨L, eL⟩ : ∃ L, L = Int.log 2 |x| := ⟨_, rfl⟩
  rw [← eL] at hL ⊢
  have p : (0 : ℚ) < 2 ^ (L - 52) := zpow_pos (by norm_num) _
  have e : (roundEven (x / 2 ^ (L - 52)) : ℚ) * 2 ^ (L - 52) - x = (roundEven (x / 2 ^ (L - 52)) - x / 2 ^ (L - 52)) * 2 ^ (L - 52) := by
    rw [sub_mul, div_mul_cancel₀ _ p.ne']
  rw [e, abs_mul, abs_of_pos p]
  have hr := roundEven_near (x / 2 ^ (L - 52))
  have e2 : (2 : ℚ) ^ (L - 52) = 2 ^ L / 2 ^ 52 := by
    rw [zpow_sub₀ (by norm_num)]
    norm_cast
  have hL' : (2 : ℚ) ^ L ≤ |x| := by exact_mod_cast hL
  calc _ ≤ 1 / 2 * (2 : ℚ) ^ (L - 52) := mul_le_mul_of_nonneg_right hr p.le
    _ = 2 ^ L / 2 ^ 53 := by rw [e2]; ring
    _ ≤ _ := div_le_div_of_nonneg_right hL' (by positivity)

/-- The same for numbers of a bounded size. -/
theorem f64_within {x B : ℚ} (h : |x| ≤ B) : |f64 x - x| ≤ B / 2 ^ 53 :=
  le_trans (f64_near x) (div_le_div_of_nonneg_right h (by positivity))

end Psd
