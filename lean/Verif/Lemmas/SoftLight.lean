import Verif.Lemmas.Formula8

/-
Soft light and hard mix: how far the integer formulas are from the documented ones.
-/

namespace Psd

theorem softN_table : ∀ d : Fin 64, d.1 ≤ softN d.1 ∧
    65025 * softN d.1 + 3060 * d.1 ^ 2 ≤ 16 * d.1 ^ 3 + 260100 * d.1 ∧
    16 * d.1 ^ 3 + 260100 * d.1 ≤ 65025 * (softN d.1 + 16) + 3060 * d.1 ^ 2 := by decide +kernel

theorem isqrt_table : ∀ d : Fin 256, d.1 ≤ sqrtU32.isqrt (d.1 * 255) ∧
    sqrtU32.isqrt (d.1 * 255) ^ 2 ≤ d.1 * 255 ∧ d.1 * 255 < (sqrtU32.isqrt (d.1 * 255) + 1) ^ 2 := by decide +kernel

theorem le_quarter_iff (d : Nat) : ((d : ℝ) / 255 ≤ 1 / 4) ↔ d < 64 := by
  rw [div_le_iff₀ (by norm_num)]
  constructor
  · intro h
    by_contra hc
    have : (64 : ℝ) ≤ d := by exact_mod_cast (by omega : 64 ≤ d)
    linarith
  · intro h
    have : (d : ℝ) ≤ 63 := by exact_mod_cast (by omega : d ≤ 63)
    linarith

theorem near_softLight (s d : Nat) (hs : s ≤ 255) (hd : d ≤ 255) :
    -17 ≤ (chanN .softLight s d : ℝ) - 255 * formula .softLight ((s : ℝ) / 255) ((d : ℝ) / 255) ∧
    (chanN .softLight s d : ℝ) - 255 * formula .softLight ((s : ℝ) / 255) ((d : ℝ) / 255) ≤ 2 := by
  simp only [chanN, formula, le_half_iff, le_quarter_iff]
  have hd' : (d : ℝ) ≤ 255 := by exact_mod_cast hd
  have hd0 : (0 : ℝ) ≤ d := by positivity
  have hs' : (s : ℝ) ≤ 255 := by exact_mod_cast hs
  split
  · obtain ⟨e, h0, h1, he⟩ := fdiv ((255 - 2 * s) * d) 255 (by norm_num)
    obtain ⟨f, g0, g1, hf⟩ := fdiv ((255 - 2 * s) * d / 255 * (255 - d)) 255 (by norm_num)
    have hle : (255 - 2 * s) * d / 255 * (255 - d) / 255 ≤ d := by
      have h1 := mul_div255_le (s := 255 - 2 * s) (d := d) (by omega)
      have h2 := Nat.mul_le_mul_left ((255 - 2 * s) * d / 255) (show 255 - d ≤ 255 by omega)
      omega
    rw [Nat.cast_sub hle, hf, Nat.cast_mul, he, Nat.cast_mul, Nat.cast_sub hd, Nat.cast_sub (by omega)]
    push_cast
    have : (d : ℝ) - (((255 - 2 * s) * d / 255 - e) * (255 - d) / 255 - f) -
        255 * (d / 255 - (1 - 2 * (s / 255)) * (d / 255) * (1 - d / 255)) = e * ((255 - d) / 255) + f := by ring
    rw [this]
    have k0 : 0 ≤ e * ((255 - (d : ℝ)) / 255) := mul_nonneg h0 (by linarith)
    have k1 : e * ((255 - (d : ℝ)) / 255) ≤ e * 1 := mul_le_mul_of_nonneg_left (by linarith) h0
    constructor <;> linarith
  · rename_i hs2
    have hsr : (128 : ℝ) ≤ s := by exact_mod_cast (by omega : 128 ≤ s)
    split
    · rename_i hd2
      obtain ⟨k1, k2, k3⟩ := softN_table ⟨d, hd2⟩
      dsimp only at k1 k2 k3
      obtain ⟨e, h0, h1, he⟩ := fdiv ((2 * s - 255) * (softN d - d)) 255 (by norm_num)
      rw [Nat.cast_add, he, Nat.cast_mul, Nat.cast_sub k1, Nat.cast_sub (by omega)]
      have k2' : (65025 : ℝ) * softN d + 3060 * d ^ 2 ≤ 16 * d ^ 3 + 260100 * d := by exact_mod_cast k2
      have k3' : (16 : ℝ) * d ^ 3 + 260100 * d ≤ 65025 * (softN d + 16) + 3060 * d ^ 2 := by exact_mod_cast k3
      push_cast
      generalize (softN d : ℝ) = x at *
      have : (d : ℝ) + ((2 * s - 255) * (x - d) / 255 - e) -
          255 * (d / 255 + (2 * (s / 255) - 1) * (((16 * (d / 255) - 12) * (d / 255) + 4) * (d / 255) - d / 255)) =
          (2 * s - 255) / 255 * (x - (16 * d ^ 3 - 3060 * d ^ 2 + 260100 * d) / 65025) - e := by ring
      rw [this]
      have b1 : -16 ≤ x - (16 * (d : ℝ) ^ 3 - 3060 * d ^ 2 + 260100 * d) / 65025 := by linarith
      have b2 : x - (16 * (d : ℝ) ^ 3 - 3060 * d ^ 2 + 260100 * d) / 65025 ≤ 0 := by linarith
      generalize x - (16 * (d : ℝ) ^ 3 - 3060 * d ^ 2 + 260100 * d) / 65025 = y at *
      have w0 : 0 ≤ (2 * (s : ℝ) - 255) / 255 := by linarith
      have w1 : (2 * (s : ℝ) - 255) / 255 ≤ 1 := by linarith
      constructor <;> nlinarith
    · obtain ⟨k1, k2, k3⟩ := isqrt_table ⟨d, by omega⟩
      dsimp only at k1 k2 k3
      obtain ⟨e, h0, h1, he⟩ := fdiv ((2 * s - 255) * (sqrtU32.isqrt (d * 255) - d)) 255 (by norm_num)
      rw [Nat.cast_add, he, Nat.cast_mul, Nat.cast_sub k1, Nat.cast_sub (by omega)]
      have k2' : (sqrtU32.isqrt (d * 255) : ℝ) ^ 2 ≤ d * 255 := by exact_mod_cast k2
      have k3' : (d : ℝ) * 255 < (sqrtU32.isqrt (d * 255) + 1) ^ 2 := by exact_mod_cast k3
      push_cast
      have x0 : (0 : ℝ) ≤ sqrtU32.isqrt (d * 255) := by positivity
      generalize (sqrtU32.isqrt (d * 255) : ℝ) = x at *
      have q1 : x / 255 ≤ Real.sqrt (d / 255) := by
        apply Real.le_sqrt_of_sq_le
        rw [div_pow]; linarith
      have q2 : Real.sqrt (d / 255) ≤ (x + 1) / 255 := by
        apply Real.sqrt_le_iff.2
        constructor
        · positivity
        · rw [div_pow]; linarith
      generalize Real.sqrt (d / 255) = r at *
      have : (d : ℝ) + ((2 * s - 255) * (x - d) / 255 - e) - 255 * (d / 255 + (2 * (s / 255) - 1) * (r - d / 255)) =
          (2 * s - 255) / 255 * (x - 255 * r) - e := by ring
      rw [this]
      have b1 : -1 ≤ x - 255 * r := by linarith
      have b2 : x - 255 * r ≤ 0 := by linarith
      generalize x - 255 * r = y at *
      have w0 : 0 ≤ (2 * (s : ℝ) - 255) / 255 := by linarith
      have w1 : (2 * (s : ℝ) - 255) / 255 ≤ 1 := by linarith
      constructor <;> nlinarith

/-- Hard mix follows the sum of the channels, except for sums of 255 and 256. -/
theorem hardMix_cases (s d : Nat) (hs : s ≤ 255) (hd : d ≤ 255) :
    (s + d < 255 → chanN .hardMix s d = 0) ∧ (256 < s + d → chanN .hardMix s d = 255) := by
  simp only [chanN]
  by_cases h : s < 128
  · simp only [h, if_true]
    by_cases h1 : d = 255
    · simp only [h1, if_true]
      exact ⟨by omega, by simp⟩
    · simp only [h1, if_false]
      by_cases h2 : s = 0
      · simp only [h2, if_true]
        exact ⟨by simp, by omega⟩
      · simp only [h2, if_false]
        have hq : (255 - d) * 255 / (2 * s) < 127 ↔ (255 - d) * 255 < 127 * (2 * s) := Nat.div_lt_iff_lt_mul (by omega)
        constructor
        · intro h3
          have : ¬ (255 - d) * 255 / (2 * s) < 127 := by rw [hq]; omega
          rw [if_pos (by omega)]
        · intro h3
          have : (255 - d) * 255 / (2 * s) < 127 := by rw [hq]; omega
          rw [if_neg (by omega)]
  · simp only [h, if_false]
    by_cases h1 : d = 0
    · simp only [h1, if_true]
      exact ⟨by simp, by omega⟩
    · simp only [h1, if_false]
      have hq : d * 255 / (511 - 2 * s) < 129 ↔ d * 255 < 129 * (511 - 2 * s) := Nat.div_lt_iff_lt_mul (by omega)
      constructor
      · intro h3
        have : d * 255 / (511 - 2 * s) < 129 := by rw [hq]; omega
        rw [if_pos (by omega)]
      · intro h3
        have : ¬ d * 255 / (511 - 2 * s) < 129 := by rw [hq]; omega
        rw [if_neg (by omega)]

end Psd
