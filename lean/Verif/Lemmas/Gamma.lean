import Verif.Spec.Gamma
import Verif.Lemmas.FloatColor
import Mathlib.Analysis.Convex.SpecificFunctions.Basic

/-
Lemmas for the gamma tables.
-/

namespace Psd

variable {P : Powers}

/-- An exponent near 0 changes little. -/
theorem rpow_small {x d : ℝ} (h0 : 1 / 2 ^ 20 ≤ x) (h1 : x ≤ 1) (hd0 : 0 ≤ d) (hd : d ≤ 1 / 2 ^ 10) : 1 - 20 * d ≤ x ^ d ∧ x ^ d ≤ 1 := by
  have hx : 0 < x := lt_of_lt_of_le (by norm_num) h0
  refine ⟨?_, Real.rpow_le_one hx.le h1 hd0⟩
  have b : ((1 : ℝ) + 1) ^ (20 * d) ≤ 1 + 20 * d * 1 := rpow_one_add_le_one_add_mul_self (by norm_num) (by linarith) (by norm_num at hd; linarith)
  have e : ((1 : ℝ) / 2 ^ 20) ^ d = (((1 : ℝ) + 1) ^ (20 * d))⁻¹ := by
    rw [one_div, Real.inv_rpow (by norm_num), Real.rpow_mul (by norm_num)]
    congr 2
    norm_num
  have m : ((1 : ℝ) / 2 ^ 20) ^ d ≤ x ^ d := Real.rpow_le_rpow (by norm_num) h0 hd0
  have p : (0 : ℝ) < ((1 : ℝ) + 1) ^ (20 * d) := Real.rpow_pos_of_pos (by norm_num) _
  refine le_trans ?_ m
  rw [e, le_inv_comm₀ (by norm_num at hd; linarith) p]
  refine le_trans b ?_
  have q : 0 < 1 - 20 * d := by norm_num at hd; linarith
  rw [← one_div, le_div_iff₀ q]
  nlinarith

/-- Exponents that differ by little. -/
theorem rpow_exp_near {x a b : ℝ} (h0 : 1 / 2 ^ 20 ≤ x) (h1 : x ≤ 1) (hd : |a - b| ≤ 1 / 2 ^ 45) : Within (1 / 2 ^ 40) (x ^ b) (x ^ a) := by
  have hx : 0 < x := lt_of_lt_of_le (by norm_num) h0
  have pb : 0 < x ^ b := Real.rpow_pos_of_pos hx _
  rcases le_total b a with h | h
  · have ea : x ^ a = x ^ b * x ^ (a - b) := by rw [← Real.rpow_add hx]; congr 1; ring
    have hd' : a - b ≤ 1 / 2 ^ 45 := le_trans (le_abs_self _) hd
    obtain ⟨s1, s2⟩ := rpow_small h0 h1 (d := a - b) (by linarith) (le_trans hd' (by norm_num))
    rw [ea]
    norm_num at hd'
    constructor
    · apply mul_le_mul_of_nonneg_left _ pb.le
      norm_num
      linarith
    · apply mul_le_mul_of_nonneg_left _ pb.le
      norm_num
      linarith
  · have pa : 0 < x ^ a := Real.rpow_pos_of_pos hx _
    have eb : x ^ b = x ^ a * x ^ (b - a) := by rw [← Real.rpow_add hx]; congr 1; ring
    have hd' : b - a ≤ 1 / 2 ^ 45 := by rw [abs_sub_comm] at hd; exact le_trans (le_abs_self _) hd
    obtain ⟨s1, s2⟩ := rpow_small h0 h1 (d := b - a) (by linarith) (le_trans hd' (by norm_num))
    rw [eb]
    generalize x ^ (b - a) = t at *
    generalize x ^ a = A at *
    norm_num at hd'
    constructor
    · norm_num
      nlinarith
    · norm_num
      nlinarith

/-- The float computed for an entry of a table: `n / d` to the power `g`, times `s`. -/
theorem entry_near (hP : P.Faithful) {n d s : Nat} (hn : n ≤ d) (hn0 : n ≠ 0) (hd : d ≤ 65535) (hs1 : 1 ≤ s) (hs : s ≤ 65535) {g : ℝ} (h0 : 0 < g) (h9 : g ≤ 9) :
    Within (1 / 2 ^ 38) (s * ((n : ℝ) / d) ^ g) (P.round64 (P.pow (P.round64 ((n : ℝ) / d)) g * s)) := by
  have dn : (1 : ℝ) ≤ n := by exact_mod_cast Nat.one_le_iff_ne_zero.mpr hn0
  have dd : (d : ℝ) ≤ 65535 := by exact_mod_cast hd
  have nd : (n : ℝ) ≤ d := by exact_mod_cast hn
  have d0 : (0 : ℝ) < d := by linarith
  have q1 : (n : ℝ) / d ≤ 1 := by rw [div_le_one d0]; exact nd
  have q0 : 1 / 65535 ≤ (n : ℝ) / d := by
    rw [div_le_div_iff₀ (by norm_num) d0]
    linarith
  have s1 : (1 : ℝ) ≤ s := by exact_mod_cast hs1
  have s2 : (s : ℝ) ≤ 65535 := by exact_mod_cast hs
  generalize (n : ℝ) / d = q at *
  generalize (s : ℝ) = S at *
  have qp : 0 < q := lt_of_lt_of_le (by norm_num) q0
  have hq := hP.near64 q (le_trans (by norm_num) q0) (le_trans q1 (by norm_num))
  have o64 : P.round64 1 = 1 := by simpa using hP.int64 1 (by norm_num)
  have r1 : P.round64 q ≤ 1 := by rw [← o64]; exact hP.mono64 _ _ q1
  have r0 : 1 / 2 ^ 20 ≤ P.round64 q := by
    have := hq.1
    norm_num at this ⊢
    linarith
  obtain ⟨g1, g2⟩ := rpow_within (k := g) (n := 9) (by norm_num) (by norm_num) qp.le h0.le (by exact_mod_cast h9) hq
  obtain ⟨p1, p2⟩ := hP.pow_near _ g r0 r1 h0 h9
  have P1 : q ^ g ≤ 1 := Real.rpow_le_one qp.le q1 h0.le
  have P2 : 1 / 2 ^ 150 ≤ q ^ g := by
    calc (1 / 2 ^ 150 : ℝ) ≤ (1 / 65535) ^ (9 : Nat) := by norm_num
      _ ≤ q ^ (9 : Nat) := pow_le_pow_left₀ (by norm_num) q0 9
      _ = q ^ ((9 : Nat) : ℝ) := (Real.rpow_natCast q 9).symm
      _ ≤ q ^ g := Real.rpow_le_rpow_of_exponent_ge qp q1 (by exact_mod_cast h9)
  generalize q ^ g = A at *
  generalize P.round64 q ^ g = B at *
  generalize P.pow (P.round64 q) g = C at *
  have a1 : A * (1 - 1 / 2 ^ 39) ≤ C := by norm_num at p1 g1 ⊢; nlinarith
  have a2 : C ≤ A * (1 + 1 / 2 ^ 39) := by norm_num at p2 g2 ⊢; nlinarith
  have A0 : 0 < A := lt_of_lt_of_le (by norm_num) P2
  have b1 : S * A * (1 - 1 / 2 ^ 39) ≤ C * S := by nlinarith
  have b2 : C * S ≤ S * A * (1 + 1 / 2 ^ 39) := by nlinarith
  have SA1 : A ≤ S * A := by nlinarith
  have SA2 : S * A ≤ 65535 := by nlinarith
  generalize S * A = D at *
  generalize C * S = G at *
  have n := hP.near64 G (by norm_num at b1 P2 ⊢; linarith) (by norm_num at b2 ⊢; linarith)
  unfold Within at n ⊢
  norm_num at n b1 b2 ⊢
  constructor <;> nlinarith

/-- Truncation, from bounds. -/
theorem floor_of_bounds {x : ℝ} {n : Nat} (h1 : (n : ℝ) ≤ x) (h2 : x < n + 1) : ⌊x⌋₊ = n :=
  (Nat.floor_eq_iff (le_trans (Nat.cast_nonneg n) h1)).mpr ⟨h1, h2⟩

end Psd
