import Verif.Spec.FloatColor
import Verif.Lemmas.Blend8
import Mathlib.Tactic.Linarith
import Mathlib.Tactic.NormNum
import Mathlib.Tactic.Positivity
import Mathlib.Tactic.FieldSimp

/-
Lemmas for the colours with floating point components.
-/

namespace Psd

variable {F : Floats}

/-- Truncation of what rounding makes of a number below a bound that is a float. -/
theorem toU32_round {rnd : ℝ → ℝ} (hm : ∀ x y, x ≤ y → rnd x ≤ rnd y) (hi : ∀ n : Nat, n ≤ 2 ^ 24 → rnd n = n) {z : ℝ} (h0 : 0 ≤ z) (h1 : z ≤ 65535) :
    (F.toU32 (.fin (rnd z))).toNat = ⌊rnd z⌋₊ ∧ 0 ≤ rnd z ∧ rnd z ≤ 65535 := by
  have e0 : rnd 0 = 0 := by simpa using hi 0 (by norm_num)
  have e1 : rnd 65535 = 65535 := by simpa using hi 65535 (by norm_num)
  have l0 : 0 ≤ rnd z := by rw [← e0]; exact hm _ _ h0
  have l1 : rnd z ≤ 65535 := by rw [← e1]; exact hm _ _ h1
  refine ⟨?_, l0, l1⟩
  have hf : ⌊rnd z⌋₊ ≤ 65535 := by
    have := Nat.floor_le_floor (R := ℝ) l1
    simpa using this
  have hc : -1 < rnd z ∧ rnd z < 2 ^ 32 := ⟨by linarith, by norm_num; linarith⟩
  simp only [Floats.toU32, if_pos hc, UInt32.toNat_ofNat']
  omega

theorem floor_between {x : ℝ} (h : 0 ≤ x) : x - 1 < (⌊x⌋₊ : ℝ) ∧ (⌊x⌋₊ : ℝ) ≤ x :=
  ⟨by have := Nat.lt_floor_add_one x; linarith, Nat.floor_le h⟩

theorem scaled_near (hF : F.Faithful) {z : ℝ} (h0 : 0 ≤ z) (h1 : z ≤ 65535) : |F.round64 z - z| ≤ 1 / 2 ^ 30 ∧ |F.round32 z - z| ≤ 1 / 2 ^ 8 := by
  by_cases hs : 1 / 2 ^ 100 ≤ z
  · have n64 := hF.near64 z hs (le_trans h1 (by norm_num))
    have n32 := hF.near32 z hs (le_trans h1 (by norm_num))
    unfold Within at n64 n32
    constructor
    · rw [abs_le]; constructor <;> norm_num at n64 ⊢ <;> nlinarith [n64.1, n64.2]
    · rw [abs_le]; constructor <;> norm_num at n32 ⊢ <;> nlinarith [n32.1, n32.2]
  · have hs : z ≤ 1 / 2 ^ 100 := le_of_not_ge hs
    have z64 : 0 ≤ F.round64 z := by
      have := hF.mono64 _ _ h0
      rwa [show F.round64 0 = 0 by simpa using hF.int64 0 (by norm_num)] at this
    have z32 : 0 ≤ F.round32 z := by
      have := hF.mono32 _ _ h0
      rwa [show F.round32 0 = 0 by simpa using hF.int32 0 (by norm_num)] at this
    have m64 := hF.mono64 _ _ hs
    have m32 := hF.mono32 _ _ hs
    have b64 := (hF.near64 (1 / 2 ^ 100) (le_refl _) (by norm_num)).2
    have b32 := (hF.near32 (1 / 2 ^ 100) (le_refl _) (by norm_num)).2
    constructor
    · rw [abs_le]; constructor <;> norm_num at b64 m64 hs ⊢ <;> linarith
    · rw [abs_le]; constructor <;> norm_num at b32 m32 hs ⊢ <;> linarith

theorem fromFloat_full {v : Fl} (h : (F.root v).GeOne) : F.fromFloat v = 0xffff := by
  unfold Floats.fromFloat
  exact if_pos h

theorem fromFloat_none {v : Fl} (h : ¬(F.root v).GeOne) (h' : (F.root v).LeZero) : F.fromFloat v = 0 := by
  unfold Floats.fromFloat
  exact (if_neg h).trans (if_pos h')

theorem fromFloat_part {v : Fl} (h : ¬(F.root v).GeOne) (h' : ¬(F.root v).LeZero) : F.fromFloat v = F.toU32 ((F.root v).scaled F.round64) := by
  unfold Floats.fromFloat
  exact (if_neg h).trans (if_neg h')

/-- What `fromFloat` makes of an amount of light: its level, at most slightly more and hardly more than one below. -/
theorem fromFloat_level (hF : F.Faithful) {v : Fl} (hv : v.Light) :
    (F.fromFloat v).toNat ≤ 65535 ∧ v.level - 1.01 ≤ (F.fromFloat v).toNat ∧ ((F.fromFloat v).toNat : ℝ) ≤ v.level + 0.01 := by
  have top : ((0xffff : UInt32).toNat : ℝ) = 65535 := by
    rw [show (0xffff : UInt32).toNat = 65535 from rfl]; norm_num
  cases v with
  | nan => exact hv.elim
  | negInf => exact hv.elim
  | posInf =>
    rw [fromFloat_full (by rw [hF.root_posInf]; trivial), top]
    refine ⟨by decide, ?_, ?_⟩ <;> norm_num [Fl.level]
  | fin x =>
    have hx : 0 ≤ x := hv
    by_cases h1 : 1 ≤ x
    · obtain ⟨y, e, hy⟩ := hF.root_ge_one x h1
      rw [fromFloat_full (by rw [e]; exact hy), top]
      simp only [Fl.level, min_eq_right h1, Real.one_rpow]
      refine ⟨by decide, ?_, ?_⟩ <;> norm_num
    · obtain ⟨y, e, ha, hb⟩ := hF.root_near x hx
      have hx1 : x ≤ 1 := le_of_not_ge h1
      have p0 : (0 : ℝ) ≤ x ^ (5 / 11 : ℝ) := Real.rpow_nonneg hx _
      have p1 : x ^ (5 / 11 : ℝ) ≤ 1 := Real.rpow_le_one hx hx1 (by norm_num)
      simp only [Fl.level, min_eq_left hx1]
      generalize x ^ (5 / 11 : ℝ) = p at ha hb p0 p1
      norm_num at ha hb
      have y0 : 0 ≤ y := by nlinarith
      by_cases hy : 1 ≤ y
      · rw [fromFloat_full (by rw [e]; exact hy), top]
        refine ⟨by decide, ?_, ?_⟩ <;> norm_num <;> nlinarith
      · by_cases hz : y ≤ 0
        · rw [fromFloat_none (by rw [e]; exact hy) (by rw [e]; exact hz)]
          refine ⟨by decide, ?_, ?_⟩ <;> norm_num <;> nlinarith
        · rw [fromFloat_part (by rw [e]; exact hy) (by rw [e]; exact hz), e]
          have z0 : 0 ≤ y * 65535 := by positivity
          have z1 : y * 65535 ≤ 65535 := by linarith
          obtain ⟨t, l0, l1⟩ := toU32_round (F := F) hF.mono64 hF.int64 z0 z1
          have sc := (scaled_near hF z0 z1).1
          obtain ⟨f0, f1⟩ := floor_between l0
          show (F.toU32 (.fin (F.round64 (y * 65535)))).toNat ≤ 65535 ∧ 65535 * p - 1.01 ≤ ((F.toU32 (.fin (F.round64 (y * 65535)))).toNat : ℝ) ∧
            ((F.toU32 (.fin (F.round64 (y * 65535)))).toNat : ℝ) ≤ 65535 * p + 0.01
          rw [t]
          rw [abs_le] at sc
          norm_num at sc
          refine ⟨?_, ?_, ?_⟩
          · have := Nat.floor_le_floor (R := ℝ) l1
            simpa using this
          · norm_num; nlinarith
          · norm_num; nlinarith

theorem rpow_within {e p x k : ℝ} {n : Nat} (he0 : 0 ≤ e) (he : e ≤ 1) (hp : 0 ≤ p) (hk0 : 0 ≤ k) (hk : k ≤ n) (h : Within e p x) :
    p ^ k * (1 - e) ^ n ≤ x ^ k ∧ x ^ k ≤ p ^ k * (1 + e) ^ n := by
  obtain ⟨h1, h2⟩ := h
  have x0 : 0 ≤ x := le_trans (mul_nonneg hp (by linarith)) h1
  have hn : k ≤ (n : ℝ) := hk
  constructor
  · calc p ^ k * (1 - e) ^ n = p ^ k * (1 - e) ^ (n : ℝ) := by rw [Real.rpow_natCast]
      _ ≤ p ^ k * (1 - e) ^ k := by
        apply mul_le_mul_of_nonneg_left _ (Real.rpow_nonneg hp _)
        by_cases h1e : e = 1
        · subst h1e
          rw [sub_self]
          by_cases hk' : k = 0
          · subst hk'
            rw [Real.rpow_zero, Real.rpow_natCast]
            exact pow_le_one₀ (le_refl _) (by norm_num)
          · have : (n : ℝ) ≠ 0 := fun hc => hk' (le_antisymm (hc ▸ hn) hk0)
            rw [Real.zero_rpow hk', Real.zero_rpow this]
        · exact Real.rpow_le_rpow_of_exponent_ge (by have := lt_of_le_of_ne he h1e; linarith) (by linarith) hn
      _ = (p * (1 - e)) ^ k := (Real.mul_rpow hp (by linarith)).symm
      _ ≤ x ^ k := Real.rpow_le_rpow (mul_nonneg hp (by linarith)) h1 hk0
  · calc x ^ k ≤ (p * (1 + e)) ^ k := Real.rpow_le_rpow x0 h2 hk0
      _ = p ^ k * (1 + e) ^ k := Real.mul_rpow hp (by linarith)
      _ ≤ p ^ k * (1 + e) ^ (n : ℝ) := by
        apply mul_le_mul_of_nonneg_left _ (Real.rpow_nonneg hp _)
        exact Real.rpow_le_rpow_of_exponent_le (by linarith) hn
      _ = p ^ k * (1 + e) ^ n := by rw [Real.rpow_natCast]

theorem pow_within {q : ℝ} (h0 : 0 ≤ q) : (q ^ (11 / 5 : ℝ)) ^ (5 / 11 : ℝ) = q := by
  rw [← Real.rpow_mul h0]
  norm_num

/-- A sixteen-bit value as a float32 with gamma. -/
theorem toFloat_near (hF : F.Faithful) {v : UInt32} (hv : v.toNat ≤ 65535) :
    ∃ x, (F.toFloat v).onFin F.round32 = .fin x ∧ 0 ≤ x ∧ Within (1 / 2 ^ 22) (((v.toNat : ℝ) / 65535) ^ (11 / 5 : ℝ)) x := by
  have z32 : F.round32 0 = 0 := by simpa using hF.int32 0 (by norm_num)
  have z64 : F.round64 0 = 0 := by simpa using hF.int64 0 (by norm_num)
  have o64 : F.round64 1 = 1 := by simpa using hF.int64 1 (by norm_num)
  unfold Floats.toFloat
  by_cases hz : v.toNat = 0
  · rw [hz]
    obtain ⟨y, e, h1, h2⟩ := hF.power_near 0 (le_refl _) (by norm_num)
    rw [Real.zero_rpow (by norm_num)] at h1 h2
    have hy : y = 0 := by linarith
    refine ⟨0, ?_, le_refl _, ?_⟩
    · norm_num
      rw [z64, e, hy]
      show Fl.fin (F.round32 0) = _
      rw [z32]
    · unfold Within
      norm_num
  · have hv1 : (1 : ℝ) ≤ v.toNat := by exact_mod_cast Nat.one_le_iff_ne_zero.mpr hz
    have hv2 : (v.toNat : ℝ) ≤ 65535 := by exact_mod_cast hv
    generalize (v.toNat : ℝ) = n at *
    have q0 : 1 / 65535 ≤ n / 65535 := by apply div_le_div_of_nonneg_right hv1; norm_num
    have q1 : n / 65535 ≤ 1 := by rw [div_le_one (by norm_num)]; exact hv2
    generalize n / 65535 = q at *
    have qp : 0 < q := lt_of_lt_of_le (by norm_num) q0
    have hq := hF.near64 q (le_trans (by norm_num) q0) (le_trans q1 (by norm_num))
    have r1 : F.round64 q ≤ 1 := by rw [← o64]; exact hF.mono64 _ _ q1
    have r0 : 0 ≤ F.round64 q := by rw [← z64]; exact hF.mono64 _ _ qp.le
    obtain ⟨y, e, h1, h2⟩ := hF.power_near _ r0 r1
    obtain ⟨g1, g2⟩ := rpow_within (k := 11 / 5) (n := 3) (by norm_num) (by norm_num) qp.le (by norm_num) (by norm_num) hq
    have P0 : (0 : ℝ) < q ^ (11 / 5 : ℝ) := Real.rpow_pos_of_pos qp _
    have P1 : q ^ (11 / 5 : ℝ) ≤ 1 := Real.rpow_le_one qp.le q1 (by norm_num)
    have P2 : 1 / 2 ^ 60 ≤ q ^ (11 / 5 : ℝ) := by
      calc (1 / 2 ^ 60 : ℝ) ≤ (1 / 65535) ^ (3 : Nat) := by norm_num
        _ ≤ q ^ (3 : Nat) := pow_le_pow_left₀ (by norm_num) q0 3
        _ = q ^ ((3 : Nat) : ℝ) := (Real.rpow_natCast q 3).symm
        _ ≤ q ^ (11 / 5 : ℝ) := Real.rpow_le_rpow_of_exponent_ge qp q1 (by norm_num)
    generalize q ^ (11 / 5 : ℝ) = P at *
    generalize F.round64 q ^ (11 / 5 : ℝ) = Q at *
    have a1 : P * (1 - 1 / 2 ^ 30) ≤ y := by norm_num at h1 g1 ⊢; nlinarith
    have a2 : y ≤ P * (1 + 1 / 2 ^ 30) := by norm_num at h2 g2 ⊢; nlinarith
    have y1 : 1 / 2 ^ 100 ≤ y := by norm_num at a1 P2 ⊢; linarith
    have y2 : y ≤ 2 ^ 100 := by norm_num at a2 ⊢; linarith
    obtain ⟨b1, b2⟩ := hF.near32 y y1 y2
    refine ⟨F.round32 y, ?_, ?_, ?_⟩
    · rw [e]
      rfl
    · have : 0 ≤ y := le_trans (by norm_num) y1
      rw [← z32]
      exact hF.mono32 _ _ this
    · constructor
      · norm_num at a1 b1 ⊢; nlinarith
      · norm_num at a2 b2 ⊢; nlinarith

/-- A sixteen-bit value comes back from a float32, at most one lower. -/
theorem roundTrip (hF : F.Faithful) {v : UInt32} (hv : v.toNat ≤ 65535) :
    (F.fromFloat ((F.toFloat v).onFin F.round32)).toNat ≤ v.toNat ∧ v.toNat ≤ (F.fromFloat ((F.toFloat v).onFin F.round32)).toNat + 1 := by
  obtain ⟨x, e, x0, w⟩ := toFloat_near hF hv
  rw [e]
  obtain ⟨_, l1, l2⟩ := fromFloat_level hF (v := .fin x) x0
  have hv2 : (v.toNat : ℝ) ≤ 65535 := by exact_mod_cast hv
  have q0 : 0 ≤ (v.toNat : ℝ) / 65535 := by positivity
  have q1 : (v.toNat : ℝ) / 65535 ≤ 1 := by rw [div_le_one (by norm_num)]; exact hv2
  have eq : 65535 * ((v.toNat : ℝ) / 65535) = v.toNat := by field_simp
  have wm : Within (1 / 2 ^ 22) (((v.toNat : ℝ) / 65535) ^ (11 / 5 : ℝ)) (min x 1) := by
    have P1 : ((v.toNat : ℝ) / 65535) ^ (11 / 5 : ℝ) ≤ 1 := Real.rpow_le_one q0 q1 (by norm_num)
    have P0 : 0 ≤ ((v.toNat : ℝ) / 65535) ^ (11 / 5 : ℝ) := Real.rpow_nonneg q0 _
    refine ⟨le_min w.1 ?_, le_trans (min_le_left _ _) w.2⟩
    norm_num
    nlinarith
  obtain ⟨g1, g2⟩ := rpow_within (k := 5 / 11) (n := 1) (by norm_num) (by norm_num) (Real.rpow_nonneg q0 _) (by norm_num) (by norm_num) wm
  rw [pow_within q0] at g1 g2
  simp only [Fl.level] at l1 l2
  generalize (min x 1) ^ (5 / 11 : ℝ) = t at *
  generalize (F.fromFloat (.fin x)).toNat = c at *
  norm_num at g1 g2 l1 l2
  have u1 : (c : ℝ) < v.toNat + 1 := by nlinarith
  have u2 : (v.toNat : ℝ) < c + 2 := by nlinarith
  have u1' : c < v.toNat + 1 := by exact_mod_cast u1
  have u2' : v.toNat < c + 2 := by exact_mod_cast u2
  omega

end Psd
