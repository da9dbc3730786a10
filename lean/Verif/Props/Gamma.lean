import Verif.Lemmas.Gamma
import Verif.Props.Scaled
import Verif.Props.FloatColor

/-
C117: gamma applied and taken back.
-/

namespace Psd

variable {P : Powers}

theorem rpow_ratio {x : ℝ} (hx : 0 ≤ x) {p q : Nat} (hq : q ≠ 0) : (x ^ ((p : ℝ) / q)) ^ q = x ^ p := by
  rw [← Real.rpow_natCast, ← Real.rpow_mul hx, div_mul_cancel₀ _ (by exact_mod_cast hq), Real.rpow_natCast]

/-- An entry of a table for an exponent near `p / q`, from integers. -/
theorem entry_value (hP : P.Faithful) {n d s m p q : Nat} (hn : n ≤ d) (hn0 : n ≠ 0) (hd : d ≤ 65535) (hs1 : 1 ≤ s) (hs : s ≤ 65535) {g : ℝ} (h0 : 0 < g) (h9 : g ≤ 9)
    (hg : |g - (p : ℝ) / q| ≤ 1 / 2 ^ 45) (hq : q ≠ 0)
    (lo : (m * (2 ^ 36 + 1)) ^ q * d ^ p ≤ s ^ q * n ^ p * (2 ^ 36) ^ q) (hi : s ^ q * n ^ p * (2 ^ 36) ^ q < ((m + 1) * (2 ^ 36 - 1)) ^ q * d ^ p) :
    ⌊P.round64 (P.pow (P.round64 ((n : ℝ) / d)) g * s)⌋₊ = m := by
  have w := entry_near hP hn hn0 hd hs1 hs h0 h9
  have dn : (1 : ℝ) ≤ n := by exact_mod_cast Nat.one_le_iff_ne_zero.mpr hn0
  have dd : (d : ℝ) ≤ 65535 := by exact_mod_cast hd
  have nd : (n : ℝ) ≤ d := by exact_mod_cast hn
  have d0 : (0 : ℝ) < d := by linarith
  have x0 : 0 ≤ (n : ℝ) / d := by positivity
  have x1 : (n : ℝ) / d ≤ 1 := by rw [div_le_one d0]; exact nd
  have x2 : 1 / 2 ^ 20 ≤ (n : ℝ) / d := by
    rw [div_le_div_iff₀ (by norm_num) d0]
    norm_num
    linarith
  have e := rpow_exp_near x2 x1 hg
  have S0 : (0 : ℝ) < s := by exact_mod_cast hs1
  have yq : ((s : ℝ) * ((n : ℝ) / d) ^ ((p : ℝ) / q)) ^ q = (s : ℝ) ^ q * ((n : ℝ) / d) ^ p := by rw [mul_pow, rpow_ratio x0 hq]
  have y0 : 0 ≤ (s : ℝ) * ((n : ℝ) / d) ^ ((p : ℝ) / q) := mul_nonneg S0.le (Real.rpow_nonneg x0 _)
  have dp : (0 : ℝ) < (d : ℝ) ^ p := by positivity
  have lo' : ((m : ℝ) * (2 ^ 36 + 1)) ^ q * (d : ℝ) ^ p ≤ (s : ℝ) ^ q * (n : ℝ) ^ p * (2 ^ 36) ^ q := by exact_mod_cast lo
  have hi' : (s : ℝ) ^ q * (n : ℝ) ^ p * (2 ^ 36) ^ q < (((m : ℝ) + 1) * (2 ^ 36 - 1)) ^ q * (d : ℝ) ^ p := by
    have c : (((2 ^ 36 - 1 : Nat)) : ℝ) = 2 ^ 36 - 1 := by norm_num
    rw [← c]
    exact_mod_cast hi
  have L : (m : ℝ) * (2 ^ 36 + 1) ≤ (s : ℝ) * ((n : ℝ) / d) ^ ((p : ℝ) / q) * 2 ^ 36 := by
    rw [← pow_le_pow_iff_left₀ (by positivity) (by positivity) hq, mul_pow _ (2 ^ 36 : ℝ), yq, div_pow]
    rw [mul_div_assoc', div_mul_eq_mul_div, le_div_iff₀ dp]
    exact lo'
  have H : (s : ℝ) * ((n : ℝ) / d) ^ ((p : ℝ) / q) * 2 ^ 36 < ((m : ℝ) + 1) * (2 ^ 36 - 1) := by
    rw [← pow_lt_pow_iff_left₀ (by positivity) (by norm_num; positivity) hq, mul_pow _ (2 ^ 36 : ℝ), yq, div_pow]
    rw [mul_div_assoc', div_mul_eq_mul_div, div_lt_iff₀ dp]
    exact hi'
  obtain ⟨w1, w2⟩ := w
  obtain ⟨e1, e2⟩ := e
  have Z0 : 0 ≤ ((n : ℝ) / d) ^ ((p : ℝ) / q) := Real.rpow_nonneg x0 _
  generalize ((n : ℝ) / d) ^ ((p : ℝ) / q) = Z at *
  generalize ((n : ℝ) / d) ^ g = G at *
  generalize P.round64 (P.pow (P.round64 ((n : ℝ) / d)) g * s) = r at *
  have f1 : s * Z * (1 - 1 / 2 ^ 40) ≤ s * G := by rw [mul_assoc]; exact mul_le_mul_of_nonneg_left e1 S0.le
  have f2 : s * G ≤ s * Z * (1 + 1 / 2 ^ 40) := by rw [mul_assoc]; exact mul_le_mul_of_nonneg_left e2 S0.le
  generalize (s : ℝ) * Z = Y at *
  generalize (s : ℝ) * G = V at *
  have m0 : (0 : ℝ) ≤ m := Nat.cast_nonneg m
  norm_num at w1 w2 f1 f2 L H
  apply floor_of_bounds
  · nlinarith
  · nlinarith

/-- The largest number below `2 ^ k` beyond `a` that meets a condition. -/
def greatest (p : Nat → Bool) : (k : Nat) → (a : Nat) → Nat
  | 0, a => a
  | k + 1, a => if p (a + 2 ^ k) then greatest p k (a + 2 ^ k) else greatest p k a

/-- The entry for `v` of the first table for the gamma 2.2. -/
def up22 (v : Nat) : Nat := greatest (fun n => n ^ 5 * 255 ^ 11 ≤ 65535 ^ 5 * v ^ 11) 16 0

theorem up22_table : ∀ v < 255, 0 < v → up22 v ≤ 65535 ∧
    (up22 v * (2 ^ 36 + 1)) ^ 5 * 255 ^ 11 ≤ 65535 ^ 5 * v ^ 11 * (2 ^ 36) ^ 5 ∧
    65535 ^ 5 * v ^ 11 * (2 ^ 36) ^ 5 < ((up22 v + 1) * (2 ^ 36 - 1)) ^ 5 * 255 ^ 11 ∧
    ((v - 1) * (2 ^ 36 + 1)) ^ 11 * 65535 ^ 5 ≤ 255 ^ 11 * up22 v ^ 5 * (2 ^ 36) ^ 11 ∧
    255 ^ 11 * up22 v ^ 5 * (2 ^ 36) ^ 11 < ((v - 1 + 1) * (2 ^ 36 - 1)) ^ 11 * 65535 ^ 5 := by
  decide +kernel

theorem t8_toNat (P : Powers) (g : ℝ) (v : UInt8) {n : Nat} (h : ⌊P.round64 (P.pow (P.round64 ((v.toNat : ℝ) / 255)) g * 65535)⌋₊ = n) (hn : n ≤ 65535) :
    ((makeGammaTable P g).t8 v).toNat = n := by
  simp only [makeGammaTable, h, UInt16.toNat_ofNat']
  omega

theorem t16_toNat (P : Powers) (g : ℝ) (v : UInt16) {n : Nat} (h : ⌊P.round64 (P.pow (P.round64 ((v.toNat : ℝ) / 65535)) (P.round64 (1 / g)) * 255)⌋₊ = n) (hn : n ≤ 255) :
    ((makeGammaTable P g).t16 v).toNat = n := by
  simp only [makeGammaTable, h, UInt8.toNat_ofNat']
  omega

theorem t16_zero (hP : P.Faithful) {g : ℝ} (h0 : 0 < P.round64 (1 / g)) {v : UInt16} (hv : v.toNat = 0) : ((makeGammaTable P g).t16 v).toNat = 0 := by
  apply t16_toNat _ _ _ _ (by omega)
  have z : P.round64 0 = 0 := by simpa using hP.int64 0 (by norm_num)
  rw [hv]
  have h0' : 0 < P.round64 g⁻¹ := by simpa using h0
  norm_num
  rw [z, hP.pow_zero _ h0']
  norm_num [z]

theorem inverse_near (hP : P.Faithful) {g : ℝ} (h1 : 1 / 8 ≤ g) (h2 : g ≤ 8) : Within (1 / 2 ^ 53) (1 / g) (P.round64 (1 / g)) ∧ 1 / 8 ≤ 1 / g ∧ 1 / g ≤ 8 ∧
    0 < P.round64 (1 / g) ∧ P.round64 (1 / g) ≤ 9 := by
  have g0 : 0 < g := lt_of_lt_of_le (by norm_num) h1
  have a : 1 / 8 ≤ 1 / g := one_div_le_one_div_of_le g0 h2
  have b : 1 / g ≤ 8 := by
    rw [div_le_iff₀ g0]
    linarith
  have w := hP.near64 (1 / g) (le_trans (by norm_num) a) (le_trans b (by norm_num))
  refine ⟨w, a, b, ?_, ?_⟩
  · have := w.1
    norm_num at this a ⊢
    linarith
  · have := w.2
    norm_num at this b ⊢
    linarith

/-- **C117** is false: with the gamma 2.2, every level but black and white comes back one level darker. -/
theorem C117_one_level_darker (hP : P.Faithful) {g : ℝ} (hg : |g - 11 / 5| ≤ 1 / 2 ^ 47) (v : UInt8) (hv : v ≠ 0) (hv' : v ≠ 255) :
    ((makeGammaTable P g).t16 ((makeGammaTable P g).t8 v)).toNat = v.toNat - 1 := by
  have v1 : v.toNat ≠ 0 := fun h => hv (UInt8.toNat_inj.mp h)
  have v2 : v.toNat ≠ 255 := fun h => hv' (UInt8.toNat_inj.mp h)
  have v3 := v.toNat_lt
  obtain ⟨t1, t2, t3, t4, t5⟩ := up22_table v.toNat (by omega) (by omega)
  have hg' := abs_le.mp hg
  norm_num at hg'
  obtain ⟨w, _, _, p0, p9⟩ := inverse_near hP (g := g) (by linarith) (by linarith)
  have e8 : ((makeGammaTable P g).t8 v).toNat = up22 v.toNat := by
    apply t8_toNat _ _ _ _ t1
    have := entry_value hP (n := v.toNat) (d := 255) (s := 65535) (m := up22 v.toNat) (p := 11) (q := 5) (g := g) (by omega) v1 (by omega) (by omega) (by omega)
      (by linarith) (by linarith) (by push_cast; exact le_trans hg (by norm_num)) (by omega) t2 t3
    exact_mod_cast this
  by_cases hz : up22 v.toNat = 0
  · rw [t16_zero hP p0 (by rw [e8, hz])]
    rw [hz] at t4
    by_cases hm : v.toNat - 1 = 0
    · exact hm.symm
    · exfalso
      rw [show (0 : Nat) ^ 5 = 0 from rfl, Nat.mul_zero, Nat.zero_mul] at t4
      have : 0 < ((v.toNat - 1) * (2 ^ 36 + 1)) ^ 11 * 65535 ^ 5 := by
        have : 0 < v.toNat - 1 := by omega
        positivity
      omega
  · apply t16_toNat _ _ _ _ (by omega)
    rw [e8]
    have hi : |P.round64 (1 / g) - (5 : ℝ) / 11| ≤ 1 / 2 ^ 45 := by
      have g0 : 0 < g := by linarith
      have e1 : g * (1 / g) = 1 := by field_simp
      have i1 : 1 / g ≤ 5 / 11 + 1 / 2 ^ 46 := by
        rw [div_le_iff₀ g0]
        norm_num
        nlinarith
      have i2 : 5 / 11 - 1 / 2 ^ 46 ≤ 1 / g := by
        rw [le_div_iff₀ g0]
        norm_num
        nlinarith
      unfold Within at w
      rw [abs_le]
      norm_num at w i1 i2 ⊢
      constructor <;> linarith [w.1, w.2]
    have := entry_value hP (n := up22 v.toNat) (d := 65535) (s := 255) (m := v.toNat - 1) (p := 5) (q := 11) (g := P.round64 (1 / g)) t1 hz (by omega) (by omega) (by omega)
      p0 p9 (by push_cast; exact hi) (by omega) t4 t5
    exact_mod_cast this

/-- **C117** (in part) With any gamma from 1/8 to 8, no level comes back brighter, and black and white come back as they are.

Missing: that the levels between come back as they are; with the usual gamma none does (`C117_one_level_darker`). -/
theorem C117_never_brighter_partial (hP : P.Faithful) {g : ℝ} (h1 : 1 / 8 ≤ g) (h2 : g ≤ 8) (v : UInt8) :
    (makeGammaTable P g).t16 ((makeGammaTable P g).t8 v) ≤ v ∧ (v = 0 ∨ v = 255 → (makeGammaTable P g).t16 ((makeGammaTable P g).t8 v) = v) := by
  have z : P.round64 0 = 0 := by simpa using hP.int64 0 (by norm_num)
  have o : P.round64 1 = 1 := by simpa using hP.int64 1 (by norm_num)
  have o8 : P.round64 255 = 255 := by simpa using hP.int64 255 (by norm_num)
  have o16 : P.round64 65535 = 65535 := by simpa using hP.int64 65535 (by norm_num)
  have g0 : 0 < g := lt_of_lt_of_le (by norm_num) h1
  obtain ⟨w, i1, i2, p0, p9⟩ := inverse_near hP h1 h2
  have v3 := v.toNat_lt
  by_cases hz : v.toNat = 0
  · have e8 : ((makeGammaTable P g).t8 v).toNat = 0 := by
      apply t8_toNat _ _ _ _ (by omega)
      rw [hz]
      norm_num
      rw [z, hP.pow_zero _ g0]
      norm_num [z]
    have e := t16_zero hP p0 e8
    have ev : v = 0 := UInt8.toNat_inj.mp hz
    have ee : (makeGammaTable P g).t16 ((makeGammaTable P g).t8 v) = 0 := UInt8.toNat_inj.mp e
    rw [ee, ev]
    exact ⟨UInt8.le_refl 0, fun _ => rfl⟩
  · by_cases hf : v.toNat = 255
    · have e8 : ((makeGammaTable P g).t8 v).toNat = 65535 := by
        apply t8_toNat _ _ _ _ (by omega)
        rw [hf]
        norm_num
        rw [o, hP.pow_one]
        norm_num [o16]
      have e16 : ((makeGammaTable P g).t16 ((makeGammaTable P g).t8 v)).toNat = 255 := by
        apply t16_toNat _ _ _ _ (by omega)
        rw [e8]
        norm_num
        rw [o, hP.pow_one]
        norm_num [o8]
      have ee : (makeGammaTable P g).t16 ((makeGammaTable P g).t8 v) = v := UInt8.toNat_inj.mp (by omega)
      rw [ee]
      exact ⟨UInt8.le_refl v, fun _ => rfl⟩
    · refine ⟨?_, fun h => ?_⟩
      · have w8 := entry_near hP (n := v.toNat) (d := 255) (s := 65535) (by omega) hz (by omega) (by omega) (by omega) g0 (le_trans h2 (by norm_num))
        have A0 : 0 ≤ ((v.toNat : ℝ) / 255) ^ g := Real.rpow_nonneg (by positivity) _
        have q0 : 0 ≤ (v.toNat : ℝ) / 255 := by positivity
        have v4 : (v.toNat : ℝ) ≤ 255 := by exact_mod_cast (show v.toNat ≤ 255 by omega)
        have A1 : ((v.toNat : ℝ) / 255) ^ g ≤ 1 := Real.rpow_le_one q0 (by rw [div_le_one (by norm_num)]; exact v4) g0.le
        have inv : (((v.toNat : ℝ) / 255) ^ g) ^ (1 / g) = (v.toNat : ℝ) / 255 := by
          rw [← Real.rpow_mul q0, mul_one_div_cancel g0.ne', Real.rpow_one]
        have w8' := w8.2
        have w8'' := w8.1
        push_cast at w8' w8''
        generalize hc : P.round64 (P.pow (P.round64 ((v.toNat : ℝ) / 255)) g * 65535) = c8 at *
        generalize ((v.toNat : ℝ) / 255) ^ g = A at *
        norm_num at w8' w8''
        have c0 : 0 ≤ c8 := by nlinarith
        have f1 := Nat.floor_le c0
        have u1 : ⌊c8⌋₊ ≤ 65535 := by
          rw [← Nat.lt_succ_iff, Nat.floor_lt c0]
          norm_num
          nlinarith
        have e8 := t8_toNat P g v (congrArg _ hc) u1
        generalize ⌊c8⌋₊ = u at *
        have goal : ∀ n : Nat, ((makeGammaTable P g).t16 ((makeGammaTable P g).t8 v)).toNat = n → n ≤ v.toNat →
            (makeGammaTable P g).t16 ((makeGammaTable P g).t8 v) ≤ v := by
          intro n h h'
          rw [UInt8.le_iff_toNat_le, h]
          exact h'
        by_cases hu : u = 0
        · exact goal 0 (t16_zero hP p0 (by rw [e8, hu])) (by omega)
        · have w16 := (entry_near hP (n := u) (d := 65535) (s := 255) u1 hu (by omega) (by omega) (by omega) p0 p9).2
          have up : (1 : ℝ) ≤ u := by exact_mod_cast Nat.one_le_iff_ne_zero.mpr hu
          have u2 : (u : ℝ) ≤ 65535 := by exact_mod_cast u1
          have x1 : (u : ℝ) / 65535 ≤ 1 := by rw [div_le_one (by norm_num)]; exact u2
          have x0 : 1 / 2 ^ 20 ≤ (u : ℝ) / 65535 := by
            rw [div_le_div_iff₀ (by norm_num) (by norm_num)]
            norm_num
            linarith
          have ex : |P.round64 (1 / g) - 1 / g| ≤ 1 / 2 ^ 45 := by
            unfold Within at w
            rw [abs_le]
            norm_num at w i1 i2 ⊢
            constructor <;> linarith [w.1, w.2]
          have b1 := (rpow_exp_near x0 x1 ex).2
          have le : (u : ℝ) / 65535 ≤ A * (1 + 1 / 2 ^ 38) := by
            rw [div_le_iff₀ (by norm_num)]
            norm_num
            linarith
          have b2 : ((u : ℝ) / 65535) ^ (1 / g) ≤ (v.toNat : ℝ) / 255 * (1 + 1 / 2 ^ 38) ^ (8 : Nat) := by
            calc ((u : ℝ) / 65535) ^ (1 / g) ≤ (A * (1 + 1 / 2 ^ 38)) ^ (1 / g) := Real.rpow_le_rpow (by positivity) le (by positivity)
              _ = A ^ (1 / g) * (1 + 1 / 2 ^ 38) ^ (1 / g) := Real.mul_rpow A0 (by norm_num)
              _ ≤ A ^ (1 / g) * (1 + 1 / 2 ^ 38) ^ ((8 : Nat) : ℝ) := by
                apply mul_le_mul_of_nonneg_left _ (Real.rpow_nonneg A0 _)
                exact Real.rpow_le_rpow_of_exponent_le (by norm_num) (by exact_mod_cast i2)
              _ = _ := by rw [inv, Real.rpow_natCast]
          push_cast at w16
          have p16 : 0 ≤ ((u : ℝ) / 65535) ^ P.round64 (1 / g) := Real.rpow_nonneg (by positivity) _
          have w16' := (entry_near hP (n := u) (d := 65535) (s := 255) u1 hu (by omega) (by omega) (by omega) p0 p9).1
          push_cast at w16'
          have c16 : 0 ≤ P.round64 (P.pow (P.round64 ((u : ℝ) / 65535)) (P.round64 (1 / g)) * 255) := by
            refine le_trans ?_ w16'
            norm_num
            norm_num at p16
            exact p16
          have fl : ⌊P.round64 (P.pow (P.round64 ((u : ℝ) / 65535)) (P.round64 (1 / g)) * 255)⌋₊ ≤ v.toNat := by
            rw [← Nat.lt_succ_iff, Nat.floor_lt c16]
            refine lt_of_le_of_lt w16 ?_
            have : (((v.toNat).succ : Nat) : ℝ) = v.toNat + 1 := by push_cast; ring
            rw [this]
            generalize ((u : ℝ) / 65535) ^ P.round64 (1 / g) = X at *
            generalize ((u : ℝ) / 65535) ^ (1 / g) = Y at *
            generalize (v.toNat : ℝ) = V at *
            norm_num at b1 b2 ⊢
            linarith
          exact goal _ (t16_toNat P g _ (by rw [e8]) (by omega)) fl
      · rcases h with rfl | rfl
        · exact absurd rfl hz
        · exact absurd rfl hf

/-- Both, for gammas near 2.2. -/
theorem dims (hP : P.Faithful) {g : ℝ} (hg : |g - 11 / 5| ≤ 1 / 2 ^ 47) (v : UInt8) : (makeGammaTable P g).t16 ((makeGammaTable P g).t8 v) = dimmed v := by
  unfold dimmed
  split
  · rename_i h
    have hg' := abs_le.mp hg
    norm_num at hg'
    exact (C117_never_brighter_partial hP (by linarith) (by linarith) v).2 h
  · rename_i h
    rw [not_or] at h
    apply UInt8.toNat_inj.mp
    rw [C117_one_level_darker hP hg v h.1 h.2]
    have v1 : v.toNat ≠ 0 := fun e => h.1 (UInt8.toNat_inj.mp e)
    rw [UInt8.toNat_sub_of_le _ _ (UInt8.le_iff_toNat_le.mpr (by simp; omega))]
    rfl

theorem be16_bytes (w : UInt16) : be16 (w >>> 8).toUInt8 w.toUInt8 = w := by
  unfold be16
  apply UInt16.toNat_inj.mp
  have hw := w.toNat_lt
  simp only [UInt16.toNat_or, UInt16.toNat_shiftLeft, UInt8.toNat_toUInt16, UInt16.toNat_toUInt8, UInt16.toNat_shiftRight]
  have e8 : (8 : UInt16).toNat % 16 = 8 := rfl
  rw [e8, Nat.shiftRight_eq_div_pow, Nat.mod_eq_of_lt (a := w.toNat / 2 ^ 8) (by omega), Nat.mod_eq_of_lt (a := _ <<< _) (by rw [Nat.shiftLeft_eq]; omega),
    ← Nat.shiftLeft_add_eq_or_of_lt (by omega), Nat.shiftLeft_eq]
  omega

/-- **C117** does not hold: a layer that is only moved by whole pixels, with gamma 2.2, comes out darker in all of its opaque pixels that are neither black nor white in
a component. -/
theorem C117_moved_layer_darkened (hP : P.Faithful) {g : ℝ} (hg : |g - 11 / 5| ≤ 1 / 2 ^ 47) {R : Resampler} (hR : R.Proper) (hs : R.Shifts) {procs ts : Nat}
    (hp : 1 ≤ procs) (hts : 1 ≤ ts) {l : LayerRec} (hpic : l.Pictured) (hc : l.Coloured) (hf : l.Filled) {u v : Int} (huv : u ≠ 0 ∨ v ≠ 0) :
    ∃ c, loadCanvasAt R procs ts (newMatrix (Aff3.move u v)) (some (makeGammaTable P g)) l = .ok (some c) ∧
      ∀ x y r g' b, pictureAt l.rect 1 (l.dataOf 0) (l.dataOf 1) (l.dataOf 2) ((l.channel (-1)).map Channel.data) x y = some [r, g', b, 255] →
        0 ≤ x + u → 0 ≤ y + v → tilePixel ts 4 c (x + u) (y + v) = [dimmed r, dimmed g', dimmed b, 255] := by
  have hid : Aff3.move u v ≠ Aff3.identity := by
    intro h
    have h2 := congrArg Aff3.m2 h
    have h5 := congrArg Aff3.m5 h
    simp only [Aff3.move, Aff3.identity] at h2 h5
    norm_cast at h2 h5
    omega
  obtain ⟨src, c, hrows, e, -, hpx⟩ := C93_gamma_partial (procs := procs) (ts := ts) hR hp hts hpic hc hf (m := Aff3.move u v) hid (by simp [Aff3.move]) (by simp [Aff3.move]) (makeGammaTable P g)
  refine ⟨c, e, fun x y r g' b hxy h0x h0y => ?_⟩
  have hmem : l.rect.Mem x y := by
    unfold pictureAt at hxy
    split at hxy
    · rename_i h
      exact h
    · cases hxy
  have hm' : (transformRect l.rect (Aff3.move u v)).Mem (x + u) (y + v) := by
    unfold Rect.Mem at hmem
    rw [transformRect_move _ (by omega)]
    unfold Rect.Mem
    simp only
    omega
  rw [hpx, if_pos (Rect.keeps_of_canvas hm' h0x h0y)]
  have hb := hrows.2 x y hmem
  simp only [hxy, Option.getD_some] at hb
  have hop : widened (makeGammaTable P g).t8 [r, g', b, 255] = ([(makeGammaTable P g).t8 r, (makeGammaTable P g).t8 g', (makeGammaTable P g).t8 b].flatMap fun v : UInt16 => [(v >>> 8).toUInt8, v.toUInt8]) ++ [255, 255] := by
    simp [widened]
  have := hs u v (transformRect l.rect (Aff3.move u v)) l.rect src x y hmem hm' (by rw [hb, hop]; rfl)
  have hmv : Aff3.move u v = ⟨1, 0, u, 0, 1, v⟩ := rfl
  rw [← hmv] at this
  rw [this, hb, hop]
  simp only [List.flatMap_cons, List.flatMap_nil, List.cons_append, List.nil_append, List.append_nil, narrowed, be16_bytes, dims hP hg]
  rfl

/-- Exact arithmetic. -/
noncomputable def Powers.ideal : Powers where
  pow x g := x ^ g
  round64 x := x

theorem Powers.ideal_faithful : Powers.ideal.Faithful where
  mono64 _ _ h := h
  int64 _ _ := rfl
  near64 x h _ := within_self (by norm_num) (le_trans (by norm_num) h)
  pow_near x g h _ _ _ := within_self (by norm_num) (Real.rpow_nonneg (le_trans (by norm_num) h) _)
  pow_zero g h := Real.zero_rpow h.ne'
  pow_one g := Real.one_rpow g

/-- 128 comes back as 127, 1 as 0. -/
example : (makeGammaTable .ideal (11 / 5)).t16 ((makeGammaTable .ideal (11 / 5)).t8 128) = 127 ∧ (makeGammaTable .ideal (11 / 5)).t16 ((makeGammaTable .ideal (11 / 5)).t8 1) = 0 :=
  ⟨dims Powers.ideal_faithful (by norm_num) 128, dims Powers.ideal_faithful (by norm_num) 1⟩

theorem exShift_shifts : exShift.Shifts := by
  intro u v dst src pix x y hs hd _
  have h := (rows_pixOf (rect := dst) (k := 8) (pic := fun x y => if src.Mem (x - ⌊(u : ℚ)⌋) (y - ⌊(v : ℚ)⌋) then bytesAt src 8 pix (x - ⌊(u : ℚ)⌋) (y - ⌊(v : ℚ)⌋) else List.replicate 8 0) (by
    intro x y
    split <;> simp [bytesAt])).2 _ _ hd
  have ex : x + u - ⌊(u : ℚ)⌋ = x := by rw [Int.floor_intCast]; omega
  have ey : y + v - ⌊(v : ℚ)⌋ = y := by rw [Int.floor_intCast]; omega
  simp only [ex, ey, if_pos hs] at h
  exact h

/-- A layer with the colour (9, 1, 0) in its corner, moved by two pixels: the colour is (8, 0, 0) then. -/
example : ∃ c, loadCanvasAt exShift 3 2 (newMatrix (Aff3.move 2 2)) (some (makeGammaTable .ideal (11 / 5))) exPlate = .ok (some c) ∧ tilePixel 2 4 c 2 2 = [8, 0, 0, 255] := by
  have lk : ∀ id c, exPlate.channel id = some c → c.data.length = 4 := by
    intro id c h
    unfold exPlate at h
    simp only [List.lookup_cons, List.lookup_nil] at h
    split at h
    · cases h; rfl
    · split at h
      · cases h; rfl
      · split at h
        · cases h; rfl
        · split at h
          · cases h; rfl
          · cases h
  have hf : exPlate.Filled := ⟨fun id c _ _ h => by rw [lk id c h]; decide, fun c h => by rw [lk _ c h]; decide⟩
  have hc : exPlate.Coloured := by
    intro _ id hid
    simp only [List.mem_cons, List.not_mem_nil, or_false] at hid
    rcases hid with rfl | rfl | rfl <;> rfl
  obtain ⟨c, e, h⟩ := C117_moved_layer_darkened Powers.ideal_faithful (g := 11 / 5) (by norm_num) exShift_proper exShift_shifts (procs := 3) (ts := 2) (by omega) (by omega)
    (l := exPlate) ⟨rfl, rfl⟩ hc hf (u := 2) (v := 2) (by omega)
  exact ⟨c, e, h 0 0 9 1 0 (by decide +kernel) (by omega) (by omega)⟩

end Psd
