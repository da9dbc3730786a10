import Verif.Props.FloatColor
import Verif.Props.Gray
import Verif.Model.Image

/-
C116: converting colours to the types with floating point components.
-/

namespace Psd

variable {F : Floats}

theorem level_fin_one {x : ℝ} (h0 : 0 ≤ x) (h1 : x ≤ 1) : (Fl.fin x).level = 65535 * x ^ (5 / 11 : ℝ) := by
  simp only [Fl.level, min_eq_left h1]

/-- A premultiplied component divided by alpha only after the gamma was removed: what is shown is darker. `q` is the component, `al` the alpha, both from 0 to 1, `z` is the
component of the new colour, `xa` its alpha. -/
theorem darkened {q al z xa : ℝ} (hq0 : 0 ≤ q) (hqa : q ≤ al) (ha0 : 0 < al) (ha1 : al ≤ 1) (hz : Within (1 / 2 ^ 20) (q ^ (11 / 5 : ℝ) / al) z)
    (hx : Within (1 / 2 ^ 24) al xa) (hx1 : xa ≤ 1) :
    |(Fl.fin z).level * (Fl.fin xa).opacity - 65535 * q * al ^ (6 / 11 : ℝ)| ≤ 0.15 := by
  have p0 : 0 ≤ q ^ (11 / 5 : ℝ) / al := div_nonneg (Real.rpow_nonneg hq0 _) ha0.le
  have z0 : 0 ≤ z := le_trans (mul_nonneg p0 (by norm_num)) hz.1
  have x0 : 0 ≤ xa := le_trans (mul_nonneg ha0.le (by norm_num)) hx.1
  have eo : (Fl.fin xa).opacity = xa := by simp [Fl.opacity, min_eq_left hx1, max_eq_right x0]
  have p1 : q ^ (11 / 5 : ℝ) / al ≤ 1 := by
    rw [div_le_one ha0]
    calc q ^ (11 / 5 : ℝ) ≤ q ^ (1 : ℝ) := Real.rpow_le_rpow_of_exponent_ge_of_imp hq0 (by linarith) (by norm_num) (by intro h; norm_num)
      _ = q := Real.rpow_one q
      _ ≤ al := hqa
  have hm : Within (1 / 2 ^ 20) (q ^ (11 / 5 : ℝ) / al) (min z 1) :=
    ⟨le_min hz.1 (by norm_num; nlinarith), le_trans (min_le_left _ _) hz.2⟩
  obtain ⟨g1, g2⟩ := rpow_within (k := 5 / 11) (n := 1) (by norm_num) (by norm_num) p0 (by norm_num) (by norm_num) hm
  have e1 : (q ^ (11 / 5 : ℝ) / al) ^ (5 / 11 : ℝ) * al = q * al ^ (6 / 11 : ℝ) := by
    rw [Real.div_rpow (Real.rpow_nonneg hq0 _) ha0.le, pow_within hq0]
    have : al ^ (5 / 11 : ℝ) * al ^ (6 / 11 : ℝ) = al := by
      rw [← Real.rpow_add ha0]
      norm_num
    have hpos : (0 : ℝ) < al ^ (5 / 11 : ℝ) := Real.rpow_pos_of_pos ha0 _
    rw [div_mul_eq_mul_div, div_eq_iff hpos.ne', mul_assoc, mul_comm (al ^ (6 / 11 : ℝ)), this]
  have b1 : (q ^ (11 / 5 : ℝ) / al) ^ (5 / 11 : ℝ) ≤ 1 := Real.rpow_le_one p0 p1 (by norm_num)
  have b0 : 0 ≤ (q ^ (11 / 5 : ℝ) / al) ^ (5 / 11 : ℝ) := Real.rpow_nonneg p0 _
  rw [eo, mul_assoc 65535 q, ← e1]
  simp only [Fl.level]
  generalize (q ^ (11 / 5 : ℝ) / al) ^ (5 / 11 : ℝ) = B at *
  generalize (min z 1) ^ (5 / 11 : ℝ) = T at *
  obtain ⟨x1, x2⟩ := hx
  norm_num at g1 g2 x1 x2
  have T0 : 0 ≤ T := le_trans (by nlinarith) g1
  have Ba : B * al ≤ 1 := by nlinarith
  have Ba0 : 0 ≤ B * al := mul_nonneg b0 ha0.le
  have u1 : T * xa ≤ B * (1048577 / 1048576) * (al * (16777217 / 16777216)) := mul_le_mul g2 x2 x0 (by nlinarith)
  have u2 : B * (1048575 / 1048576) * (al * (16777215 / 16777216)) ≤ T * xa := mul_le_mul g1 x1 (by nlinarith) T0
  rw [abs_le]
  constructor
  · norm_num; nlinarith
  · norm_num; nlinarith

/-- Dividing a float32 by the alpha, and multiplying with its reciprocal. -/
theorem divided_near (hF : F.Faithful) {p x al : ℝ} (hp : p = 0 ∨ 1 / 2 ^ 60 ≤ p) (hp1 : p ≤ 1) (hx : Within (1 / 2 ^ 22) p x) (ha0 : 1 / 65535 ≤ al) (ha1 : al ≤ 1) :
    Within (1 / 2 ^ 20) (p / al) (F.round32 (x / F.round32 al)) ∧ Within (1 / 2 ^ 20) (p / al) (F.round32 (x * F.round32 (1 / al))) ∧
    0 ≤ F.round32 (x / F.round32 al) ∧ 0 ≤ F.round32 (x * F.round32 (1 / al)) := by
  have z32 : F.round32 0 = 0 := by simpa using hF.int32 0 (by norm_num)
  have ap : 0 < al := lt_of_lt_of_le (by norm_num) ha0
  rcases hp with h | h
  · have : x = 0 := by
      unfold Within at hx
      rw [h] at hx
      linarith [hx.1, hx.2]
    rw [this, h]
    simp only [zero_div, zero_mul, z32]
    exact ⟨within_self (by norm_num) (le_refl _), within_self (by norm_num) (le_refl _), le_refl _, le_refl _⟩
  · have i1 : 1 ≤ 1 / al := by rw [le_div_iff₀ ap]; linarith
    have i2 : 1 / al ≤ 65535 := by rw [div_le_iff₀ ap]; linarith
    have n1 := hF.near32 al (le_trans (by norm_num) ha0) (le_trans ha1 (by norm_num))
    have n2 := hF.near32 (1 / al) (le_trans (by norm_num) i1) (le_trans i2 (by norm_num))
    unfold Within at n1 n2 hx
    norm_num at n1 n2 hx
    have r0 : 0 < F.round32 al := by nlinarith
    have pa : p / al = p * (1 / al) := by ring
    have d1 : p / al * (1 - 1 / 2 ^ 21) ≤ x / F.round32 al := by
      rw [le_div_iff₀ r0]
      have : p / al * al = p := by field_simp
      have h2 : 0 ≤ p / al := div_nonneg (by linarith) ap.le
      have h3 : p / al * F.round32 al ≤ p / al * (al * (16777217 / 16777216)) := mul_le_mul_of_nonneg_left n1.2 h2
      norm_num
      nlinarith
    have d2 : x / F.round32 al ≤ p / al * (1 + 1 / 2 ^ 21) := by
      rw [div_le_iff₀ r0]
      have : p / al * al = p := by field_simp
      have h2 : 0 ≤ p / al := div_nonneg (by linarith) ap.le
      have h3 : p / al * (al * (16777215 / 16777216)) ≤ p / al * F.round32 al := mul_le_mul_of_nonneg_left n1.1 h2
      norm_num
      nlinarith
    have m1 : p / al * (1 - 1 / 2 ^ 21) ≤ x * F.round32 (1 / al) := by
      rw [one_div]
      have hi : 0 ≤ al⁻¹ := by positivity
      have h1 : p * (4194303 / 4194304) * (al⁻¹ * (16777215 / 16777216)) ≤ x * F.round32 al⁻¹ :=
        mul_le_mul hx.1 n2.1 (by positivity) (by nlinarith)
      have h2 : 0 ≤ p * al⁻¹ := mul_nonneg (by linarith) hi
      rw [pa, one_div]
      norm_num
      nlinarith
    have m2 : x * F.round32 (1 / al) ≤ p / al * (1 + 1 / 2 ^ 21) := by
      rw [one_div]
      have hi : 0 ≤ al⁻¹ := by positivity
      have r : 0 ≤ F.round32 al⁻¹ := le_trans (by positivity) n2.1
      have h1 : x * F.round32 al⁻¹ ≤ p * (4194305 / 4194304) * (al⁻¹ * (16777217 / 16777216)) :=
        mul_le_mul hx.2 n2.2 r (by nlinarith)
      have h2 : 0 ≤ p * al⁻¹ := mul_nonneg (by linarith) hi
      rw [pa, one_div]
      norm_num
      nlinarith
    have P1 : p ≤ p / al := by rw [le_div_iff₀ ap]; nlinarith
    have P2 : p / al ≤ 65535 := by rw [pa]; nlinarith
    generalize p / al = P at *
    generalize x / F.round32 al = u at *
    generalize x * F.round32 (1 / al) = w at *
    have fin : ∀ t : ℝ, P * (1 - 1 / 2 ^ 21) ≤ t → t ≤ P * (1 + 1 / 2 ^ 21) → Within (1 / 2 ^ 20) P (F.round32 t) ∧ 0 ≤ F.round32 t := by
      intro t t1 t2
      norm_num at t1 t2
      have n := hF.near32 t (by norm_num at h ⊢; nlinarith) (by norm_num; nlinarith)
      unfold Within at n ⊢
      norm_num at n ⊢
      exact ⟨⟨by nlinarith, by nlinarith⟩, by nlinarith⟩
    exact ⟨(fin u d1 d2).1, (fin w m1 m2).1, (fin u d1 d2).2, (fin w m1 m2).2⟩

/-- The float with gamma of a component, divided by alpha. -/
theorem straight_near (hF : F.Faithful) {v a : UInt32} (hva : v.toNat ≤ a.toNat) (ha : a.toNat ≤ 65535) (ha0 : a ≠ 0) :
    ∃ x, (F.toFloat v).onFin F.round32 = .fin x ∧
      Within (1 / 2 ^ 20) (((v.toNat : ℝ) / 65535) ^ (11 / 5 : ℝ) / ((a.toNat : ℝ) / 65535)) (F.round32 (x / F.round32 ((a.toNat : ℝ) / 65535))) ∧
      Within (1 / 2 ^ 20) (((v.toNat : ℝ) / 65535) ^ (11 / 5 : ℝ) / ((a.toNat : ℝ) / 65535)) (F.round32 (x * F.round32 (65535 / (a.toNat : ℝ)))) ∧
      0 ≤ F.round32 (x / F.round32 ((a.toNat : ℝ) / 65535)) ∧ 0 ≤ F.round32 (x * F.round32 (65535 / (a.toNat : ℝ))) := by
  obtain ⟨x, e, x0, w⟩ := toFloat_near hF (v := v) (by omega)
  refine ⟨x, e, ?_⟩
  have a1 : (1 : ℝ) ≤ a.toNat := by
    have : a.toNat ≠ 0 := fun h => ha0 (UInt32.toNat_inj.mp h)
    exact_mod_cast Nat.one_le_iff_ne_zero.mpr this
  have a2 : (a.toNat : ℝ) ≤ 65535 := by exact_mod_cast ha
  have v2 : (v.toNat : ℝ) ≤ 65535 := by exact_mod_cast le_trans hva ha
  have q1 : (v.toNat : ℝ) / 65535 ≤ 1 := by rw [div_le_one (by norm_num)]; exact v2
  have q0 : 0 ≤ (v.toNat : ℝ) / 65535 := by positivity
  have hp : ((v.toNat : ℝ) / 65535) ^ (11 / 5 : ℝ) = 0 ∨ 1 / 2 ^ 60 ≤ ((v.toNat : ℝ) / 65535) ^ (11 / 5 : ℝ) := by
    by_cases hz : v.toNat = 0
    · left
      rw [hz]
      norm_num
    · right
      have v1 : (1 : ℝ) ≤ v.toNat := by exact_mod_cast Nat.one_le_iff_ne_zero.mpr hz
      have q0' : 1 / 65535 ≤ (v.toNat : ℝ) / 65535 := by apply div_le_div_of_nonneg_right v1; norm_num
      calc (1 / 2 ^ 60 : ℝ) ≤ (1 / 65535) ^ (3 : Nat) := by norm_num
        _ ≤ ((v.toNat : ℝ) / 65535) ^ (3 : Nat) := pow_le_pow_left₀ (by norm_num) q0' 3
        _ = ((v.toNat : ℝ) / 65535) ^ ((3 : Nat) : ℝ) := (Real.rpow_natCast _ 3).symm
        _ ≤ ((v.toNat : ℝ) / 65535) ^ (11 / 5 : ℝ) := Real.rpow_le_rpow_of_exponent_ge (lt_of_lt_of_le (by norm_num) q0') q1 (by norm_num)
  have al0 : 1 / 65535 ≤ (a.toNat : ℝ) / 65535 := by apply div_le_div_of_nonneg_right a1; norm_num
  have al1 : (a.toNat : ℝ) / 65535 ≤ 1 := by rw [div_le_one (by norm_num)]; exact a2
  have h := divided_near hF hp (Real.rpow_le_one q0 q1 (by norm_num)) w al0 al1
  rw [one_div_div] at h
  exact h

theorem alpha_float (hF : F.Faithful) {a : UInt32} (ha : a.toNat ≤ 65535) (ha0 : a ≠ 0) :
    0 ≤ F.round32 ((a.toNat : ℝ) / 65535) ∧ F.round32 ((a.toNat : ℝ) / 65535) ≤ 1 ∧
    Within (1 / 2 ^ 24) ((a.toNat : ℝ) / 65535) (F.round32 ((a.toNat : ℝ) / 65535)) := by
  have a1 : (1 : ℝ) ≤ a.toNat := by
    have : a.toNat ≠ 0 := fun h => ha0 (UInt32.toNat_inj.mp h)
    exact_mod_cast Nat.one_le_iff_ne_zero.mpr this
  have a2 : (a.toNat : ℝ) ≤ 65535 := by exact_mod_cast ha
  have al0 : 1 / 65535 ≤ (a.toNat : ℝ) / 65535 := by apply div_le_div_of_nonneg_right a1; norm_num
  have al1 : (a.toNat : ℝ) / 65535 ≤ 1 := by rw [div_le_one (by norm_num)]; exact a2
  have n := hF.near32 _ (le_trans (by norm_num) al0) (le_trans al1 (by norm_num))
  refine ⟨?_, ?_, n⟩
  · rw [← show F.round32 0 = 0 by simpa using hF.int32 0 (by norm_num)]
    exact hF.mono32 _ _ (le_trans (by norm_num) al0)
  · rw [← show F.round32 1 = 1 by simpa using hF.int32 1 (by norm_num)]
    exact hF.mono32 _ _ al1

/-- A number of a converted colour is the given one, up to rounding: at most 3.2 below and 0.2 above. -/
def Nearly (n : UInt32) (x : ℝ) : Prop := x - 3.2 ≤ n.toNat ∧ (n.toNat : ℝ) ≤ x + 0.2

theorem nearly_of {n : UInt32} {x y : ℝ} (h : Shown n x) (hxy : |x - y| ≤ 0.15) : Nearly n y := by
  obtain ⟨h1, h2⟩ := h
  rw [abs_le] at hxy
  unfold Nearly
  norm_num at *
  constructor <;> linarith

/-- The share of the light that a conversion of a translucent colour leaves: its alpha, from 0 to 1, to the power of 6/11. -/
noncomputable def RGBA32.left (v : RGBA32) : ℝ := ((v.a.toNat : ℝ) / 65535) ^ (6 / 11 : ℝ)

theorem channel_left (hF : F.Faithful) {v a : UInt32} (hva : v.toNat ≤ a.toNat) (ha : a.toNat ≤ 65535) (ha0 : a ≠ 0) {z : ℝ}
    (hz : Within (1 / 2 ^ 20) (((v.toNat : ℝ) / 65535) ^ (11 / 5 : ℝ) / ((a.toNat : ℝ) / 65535)) z) :
    |(Fl.fin z).level * (Fl.fin (F.round32 ((a.toNat : ℝ) / 65535))).opacity - v.toNat * ((a.toNat : ℝ) / 65535) ^ (6 / 11 : ℝ)| ≤ 0.15 := by
  obtain ⟨_, x1, n⟩ := alpha_float hF ha ha0
  have hva' : (v.toNat : ℝ) ≤ a.toNat := by exact_mod_cast hva
  have a1 : (1 : ℝ) ≤ a.toNat := by
    have : a.toNat ≠ 0 := fun h => ha0 (UInt32.toNat_inj.mp h)
    exact_mod_cast Nat.one_le_iff_ne_zero.mpr this
  have a2 : (a.toNat : ℝ) ≤ 65535 := by exact_mod_cast ha
  have d := darkened (q := (v.toNat : ℝ) / 65535) (by positivity) (by apply div_le_div_of_nonneg_right hva'; norm_num)
    (by positivity) (by rw [div_le_one (by norm_num)]; exact a2) hz n x1
  rwa [show 65535 * ((v.toNat : ℝ) / 65535) = v.toNat by field_simp] at d

theorem convert_float (k : FloatKind) (m : ColorModel) (hm : m = match k with | .gray32 => .gray32 | .nGrayA64 => .nGrayA64 | .nRGBA128 => .nRGBA128)
    (c : Col) (hk : ∀ v, c ≠ .float k v) : m.convert F.conv c = .ok (.float k (F.conv k c.rgba)) := by
  subst hm
  cases k <;>
    (cases c with
      | float k' v =>
        have : k' ≠ _ := fun h => hk v (by rw [h])
        simp only [ColorModel.convert, floatModel, if_neg this]
        rfl
      | _ => rfl)

/-- **C116** (in part) Converting an opaque colour to 32-bit RGB keeps it: every channel comes back, at most one of 65535 lower.

Missing: translucent colours, which are darkened (`C116_translucent_darkened`). -/
theorem C116_opaque_partial (hF : F.Faithful) (c : Col) (hp : Premultiplied c.rgba) (ha : c.rgba.a = 0xffff) :
    ∃ x, ColorModel.convert F.conv .nRGBA128 c = .ok x ∧ x.rgba.a = 0xffff ∧
      (x.rgba.r.toNat ≤ c.rgba.r.toNat ∧ c.rgba.r.toNat ≤ x.rgba.r.toNat + 1) ∧
      (x.rgba.g.toNat ≤ c.rgba.g.toNat ∧ c.rgba.g.toNat ≤ x.rgba.g.toNat + 1) ∧
      (x.rgba.b.toNat ≤ c.rgba.b.toNat ∧ c.rgba.b.toNat ≤ x.rgba.b.toNat + 1) := by
  by_cases hk : ∃ v, c = .float .nRGBA128 v
  · obtain ⟨v, rfl⟩ := hk
    exact ⟨_, rfl, ha, ⟨by omega, by omega⟩, ⟨by omega, by omega⟩, ⟨by omega, by omega⟩⟩
  · refine ⟨_, convert_float .nRGBA128 .nRGBA128 rfl c (fun v h => hk ⟨v, h⟩), ?_⟩
    have e : F.conv .nRGBA128 c.rgba = ⟨F.fromFloat ((F.toFloat c.rgba.r).onFin F.round32), F.fromFloat ((F.toFloat c.rgba.g).onFin F.round32),
        F.fromFloat ((F.toFloat c.rgba.b).onFin F.round32), 0xffff⟩ := by
      have hge : c.rgba.a ≥ 0xffff := by rw [ha]; decide
      simp only [Floats.conv, FCol.ofRGBA, if_pos hge, FCol.rgba]
      exact premulF_opaque (alpha := .fin 1) (le_refl (1 : ℝ)) _ _ _
    obtain ⟨p0, p1, p2, p3⟩ := hp
    show (F.conv .nRGBA128 c.rgba).a = _ ∧ ((F.conv .nRGBA128 c.rgba).r.toNat ≤ _ ∧ _ ≤ (F.conv .nRGBA128 c.rgba).r.toNat + 1) ∧
      ((F.conv .nRGBA128 c.rgba).g.toNat ≤ _ ∧ _ ≤ (F.conv .nRGBA128 c.rgba).g.toNat + 1) ∧
      ((F.conv .nRGBA128 c.rgba).b.toNat ≤ _ ∧ _ ≤ (F.conv .nRGBA128 c.rgba).b.toNat + 1)
    rw [e]
    exact ⟨rfl, roundTrip hF (by omega), roundTrip hF (by omega), roundTrip hF (by omega)⟩

/-- **C116** (in part) Converting an opaque colour to 32-bit grey, with or without alpha, gives the grey of its luminance, at most one of 65535 lower. -/
theorem C116_grey_partial (hF : F.Faithful) (c : Col) (hp : Premultiplied c.rgba) (ha : c.rgba.a = 0xffff) (m : ColorModel) (k : FloatKind)
    (hm : m = .gray32 ∧ k = .gray32 ∨ m = .nGrayA64 ∧ k = .nGrayA64) (hk : ∀ v, c ≠ .float k v) :
    ∃ x, m.convert F.conv c = .ok x ∧ x.rgba.a = 0xffff ∧ x.rgba.g = x.rgba.r ∧ x.rgba.b = x.rgba.r ∧
      x.rgba.r.toNat ≤ (lumaMilli c.rgba + 500) / 1000 ∧ (lumaMilli c.rgba + 500) / 1000 ≤ x.rgba.r.toNat + 1 := by
  have hY := grayY_toNat hp
  have hle := gray_le hp
  have hp0 := hp.1
  have rt := roundTrip hF (v := grayY c.rgba) (by omega)
  rw [hY] at rt
  rcases hm with ⟨rfl, rfl⟩ | ⟨rfl, rfl⟩
  · exact ⟨_, convert_float .gray32 .gray32 rfl c hk, rfl, rfl, rfl, rt.1, rt.2⟩
  · refine ⟨_, convert_float .nGrayA64 .nGrayA64 rfl c hk, ?_⟩
    have e : F.conv .nGrayA64 c.rgba = ⟨F.fromFloat ((F.toFloat (grayY c.rgba)).onFin F.round32), F.fromFloat ((F.toFloat (grayY c.rgba)).onFin F.round32),
        F.fromFloat ((F.toFloat (grayY c.rgba)).onFin F.round32), 0xffff⟩ := by
      have h0 : ¬c.rgba.a = 0 := by rw [ha]; decide
      simp only [Floats.conv, FCol.ofRGBA, if_neg h0, if_pos ha, FCol.rgba]
      exact premulF_opaque (alpha := .fin 1) (le_refl (1 : ℝ)) _ _ _
    show (F.conv .nGrayA64 c.rgba).a = _ ∧ (F.conv .nGrayA64 c.rgba).g = (F.conv .nGrayA64 c.rgba).r ∧ (F.conv .nGrayA64 c.rgba).b = (F.conv .nGrayA64 c.rgba).r ∧
      (F.conv .nGrayA64 c.rgba).r.toNat ≤ _ ∧ _ ≤ (F.conv .nGrayA64 c.rgba).r.toNat + 1
    rw [e]
    exact ⟨rfl, rfl, rfl, rt.1, rt.2⟩

/-- **C116** Fully transparent colours stay so. -/
theorem C116_transparent (c : Col) (ha : c.rgba.a = 0) (m : ColorModel) (k : FloatKind)
    (hm : m = .nRGBA128 ∧ k = .nRGBA128 ∨ m = .nGrayA64 ∧ k = .nGrayA64) (hk : ∀ v, c ≠ .float k v) :
    ∃ x, m.convert F.conv c = .ok x ∧ x.rgba = ⟨0, 0, 0, 0⟩ := by
  rcases hm with ⟨rfl, rfl⟩ | ⟨rfl, rfl⟩
  · refine ⟨_, convert_float .nRGBA128 .nRGBA128 rfl c hk, ?_⟩
    have h1 : ¬c.rgba.a ≥ 0xffff := by rw [ha]; decide
    show F.conv _ _ = _
    simp only [Floats.conv, FCol.ofRGBA, if_neg h1, if_pos ha, FCol.rgba]
    exact premulF_clear (alpha := .fin 0) (le_refl (0 : ℝ)) _ _ _
  · refine ⟨_, convert_float .nGrayA64 .nGrayA64 rfl c hk, ?_⟩
    show F.conv _ _ = _
    simp only [Floats.conv, FCol.ofRGBA, if_pos ha, FCol.rgba]
    exact premulF_clear (alpha := .fin 0) (le_refl (0 : ℝ)) _ _ _

/-- **C116** is false of translucent colours. Converted to 32-bit RGB they keep their alpha, but every channel is multiplied by the power 6/11 of the alpha. -/
theorem C116_translucent_darkened (hF : F.Faithful) (c : Col) (hp : Premultiplied c.rgba) (h0 : c.rgba.a ≠ 0) (h1 : c.rgba.a ≠ 0xffff)
    (hk : ∀ v, c ≠ .float .nRGBA128 v) :
    ∃ x, ColorModel.convert F.conv .nRGBA128 c = .ok x ∧ Nearly x.rgba.a c.rgba.a.toNat ∧ Nearly x.rgba.r (c.rgba.r.toNat * c.rgba.left) ∧
      Nearly x.rgba.g (c.rgba.g.toNat * c.rgba.left) ∧ Nearly x.rgba.b (c.rgba.b.toNat * c.rgba.left) := by
  refine ⟨_, convert_float .nRGBA128 .nRGBA128 rfl c hk, ?_⟩
  show Nearly (F.conv .nRGBA128 c.rgba).a _ ∧ Nearly (F.conv .nRGBA128 c.rgba).r _ ∧ Nearly (F.conv .nRGBA128 c.rgba).g _ ∧ Nearly (F.conv .nRGBA128 c.rgba).b _
  obtain ⟨p0, pr, pg, pb⟩ := hp
  generalize c.rgba = v at *
  have hge : ¬v.a ≥ 0xffff := by
    intro h
    have h' : 65535 ≤ v.a.toNat := h
    exact h1 (UInt32.toNat_inj.mp (show v.a.toNat = 65535 by omega))
  obtain ⟨xr, er, _, wr, _, nr⟩ := straight_near hF pr p0 h0
  obtain ⟨xg, eg, _, wg, _, ng⟩ := straight_near hF pg p0 h0
  obtain ⟨xb, eb, _, wb, _, nb⟩ := straight_near hF pb p0 h0
  have e : F.conv .nRGBA128 v = F.premulF (F.fromFloat (.fin (F.round32 (xr * F.round32 (65535 / (v.a.toNat : ℝ))))))
      (F.fromFloat (.fin (F.round32 (xg * F.round32 (65535 / (v.a.toNat : ℝ)))))) (F.fromFloat (.fin (F.round32 (xb * F.round32 (65535 / (v.a.toNat : ℝ))))))
      (.fin (F.round32 ((v.a.toNat : ℝ) / 65535))) := by
    simp only [Floats.conv, FCol.ofRGBA, if_neg hge, if_neg h0, FCol.rgba, er, eg, eb]
    rfl
  obtain ⟨s1, s2, s3, s4⟩ := premulF_near hF (r := .fin _) (g := .fin _) (b := .fin _) (alpha := .fin (F.round32 ((v.a.toNat : ℝ) / 65535))) nr ng nb (by intro h; cases h)
  rw [e]
  refine ⟨nearly_of s4 ?_, nearly_of s1 (channel_left hF pr p0 h0 wr), nearly_of s2 (channel_left hF pg p0 h0 wg), nearly_of s3 (channel_left hF pb p0 h0 wb)⟩
  obtain ⟨x0, x1, n⟩ := alpha_float hF p0 h0
  have eo : (Fl.fin (F.round32 ((v.a.toNat : ℝ) / 65535))).opacity = F.round32 ((v.a.toNat : ℝ) / 65535) := by
    simp [Fl.opacity, min_eq_left x1, max_eq_right x0]
  rw [eo]
  have a2 : (v.a.toNat : ℝ) ≤ 65535 := by exact_mod_cast p0
  have a0 : (0 : ℝ) ≤ v.a.toNat := Nat.cast_nonneg _
  unfold Within at n
  norm_num at n
  rw [abs_le]
  constructor <;> norm_num <;> linarith [n.1, n.2]

/-- **C116** So in a colour that is half transparent or more, every channel that is not black comes back more than a quarter darker. -/
theorem C116_half_transparent (hF : F.Faithful) (c : Col) (hp : Premultiplied c.rgba) (h0 : c.rgba.a ≠ 0) (h1 : c.rgba.a.toNat ≤ 32768)
    (hk : ∀ v, c ≠ .float .nRGBA128 v) (hr : 10 ≤ c.rgba.r.toNat) :
    ∃ x, ColorModel.convert F.conv .nRGBA128 c = .ok x ∧ 4 * x.rgba.r.toNat < 3 * c.rgba.r.toNat := by
  have hne : c.rgba.a ≠ 0xffff := by
    intro h
    rw [h] at h1
    exact absurd h1 (by decide)
  obtain ⟨x, e, _, ⟨_, hx⟩, _⟩ := C116_translucent_darkened hF c hp h0 hne hk
  refine ⟨x, e, ?_⟩
  have hl : c.rgba.left ≤ 0.7 := by
    unfold RGBA32.left
    have a2 : (c.rgba.a.toNat : ℝ) ≤ 32768 := by exact_mod_cast h1
    have q : (c.rgba.a.toNat : ℝ) / 65535 ≤ 0.501 := by
      rw [div_le_iff₀ (by norm_num)]
      norm_num
      linarith
    calc ((c.rgba.a.toNat : ℝ) / 65535) ^ (6 / 11 : ℝ) ≤ (0.501 : ℝ) ^ (6 / 11 : ℝ) := Real.rpow_le_rpow (by positivity) q (by norm_num)
      _ = ((0.501 : ℝ) ^ (6 : Nat)) ^ (1 / 11 : ℝ) := by
        rw [← Real.rpow_natCast, ← Real.rpow_mul (by norm_num)]
        norm_num
      _ ≤ ((0.7 : ℝ) ^ (11 : Nat)) ^ (1 / 11 : ℝ) := Real.rpow_le_rpow (by norm_num) (by norm_num) (by norm_num)
      _ = 0.7 := by
        rw [← Real.rpow_natCast, ← Real.rpow_mul (by norm_num)]
        norm_num
  have r1 : (10 : ℝ) ≤ c.rgba.r.toNat := by exact_mod_cast hr
  have : (4 : ℝ) * x.rgba.r.toNat < 3 * c.rgba.r.toNat := by
    norm_num at hx hl
    nlinarith
  exact_mod_cast this

/-- What Model/Color.lean says about colours with floating point components, which it knows only by what their `RGBA` method returns, is true of the colours themselves. -/
theorem float_refines (k : FloatKind) (m : ColorModel) (hm : m = match k with | .gray32 => .gray32 | .nGrayA64 => .nGrayA64 | .nRGBA128 => .nRGBA128) (c : FCol) :
    m.convert F.conv (.float c.kind (c.rgba F)) = .ok (.float (c.convert F k).kind ((c.convert F k).rgba F)) := by
  by_cases h : c.kind = k
  · subst h
    have e : c.convert F c.kind = c := if_pos rfl
    rw [e, hm]
    cases c <;> rfl
  · have e : c.convert F k = .ofRGBA F k (c.rgba F) := if_neg h
    have hk : (FCol.ofRGBA F k (c.rgba F)).kind = k := by
      cases k with
      | gray32 => rfl
      | nGrayA64 => simp only [FCol.ofRGBA]; split <;> [rfl; split <;> rfl]
      | nRGBA128 => simp only [FCol.ofRGBA]; split <;> [rfl; split <;> rfl]
    rw [e, hk]
    exact convert_float k m hm _ (by intro v hv; cases hv; exact h rfl)

/-- **C74** (in part) The colours of the pixels of 32-bit pictures belong to the colour model of the picture: converting them changes nothing. -/
theorem C74_float_colours_partial (p : Picker) (v : PixelVal) (c : FCol) (hc : p.floatColour v = some c) :
    ∃ k, p.colorModel = .own (match k with | .gray32 => .gray32 | .nGrayA64 => .nGrayA64 | .nRGBA128 => .nRGBA128) ∧ c.convert F k = c := by
  refine ⟨c.kind, ?_, if_pos rfl⟩
  obtain ⟨k, rect, src, pal⟩ := p
  unfold Picker.floatColour at hc
  split at hc
  all_goals first
    | cases hc; rename_i hk; subst hk; rfl
    | cases hc

/-- White at half opacity. -/
example : ∃ x, ColorModel.convert Floats.ideal.conv .nRGBA128 (.foreign ⟨32768, 32768, 32768, 32768⟩) = .ok x ∧ 4 * x.rgba.r.toNat < 3 * 32768 :=
  C116_half_transparent Floats.ideal_faithful (.foreign ⟨32768, 32768, 32768, 32768⟩) ⟨by decide, by decide, by decide, by decide⟩ (by decide) (by decide)
    (by intro v h; cases h) (by decide)

example : ∃ x, ColorModel.convert Floats.ideal.conv .gray32 (.nGrayA 100 255) = .ok x ∧ x.rgba.r.toNat ≤ 25700 ∧ 25700 ≤ x.rgba.r.toNat + 1 := by
  obtain ⟨x, h1, _, _, _, h2, h3⟩ := C116_grey_partial Floats.ideal_faithful (.nGrayA 100 255) ⟨by decide, by decide, by decide, by decide⟩ (by decide) .gray32 .gray32
    (.inl ⟨rfl, rfl⟩) (by intro v h; cases h)
  have e : (lumaMilli (Col.nGrayA 100 255).rgba + 500) / 1000 = 25700 := by decide
  rw [e] at h2 h3
  exact ⟨x, h1, h2, h3⟩

end Psd
