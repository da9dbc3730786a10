import Verif.Lemmas.SoftLight

/-
Blending NRGBA pixels on the 8-bit scale (C38 to C44).
-/

namespace Psd

/-! ## C38: no wrap-around -/

/-- **C38** For every blend mode, opacity and pair of pixels, drawing succeeds (no division by zero) and the result is
the one computed in unbounded integers: the weighted mean of the blended, the source and the backdrop colour. -/
theorem C38_no_wrap (m : Mode) (op : UInt8) (s d : Px) :
    ∃ p, drawNN m op.toUInt32 s d = .ok p ∧ Composite m op.toNat s d p := by
  have h := drawNN_exact m op.toUInt32 (by rw [UInt8.toNat_toUInt32]; have := op.toNat_lt; omega) s d
  rwa [UInt8.toNat_toUInt32] at h

/-- **C38** The mean is never cut off at 255, except in `Add`. -/
theorem C38_mean_in_range (m : Mode) (hm : m ≠ .sep .add) (s d : RGB Nat) (hs : s.Le 255) (hd : d.Le 255)
    (a1 a2 a3 : Nat) :
    ((blendN m s d).r * a1 + s.r * a2 + d.r * a3) / (a1 + a2 + a3) ≤ 255 ∧
    ((blendN m s d).g * a1 + s.g * a2 + d.g * a3) / (a1 + a2 + a3) ≤ 255 ∧
    ((blendN m s d).b * a1 + s.b * a2 + d.b * a3) / (a1 + a2 + a3) ≤ 255 := by
  have hc := blendN_le m hm hs hd
  refine ⟨?_, ?_, ?_⟩ <;> apply Nat.div_le_of_le_mul <;> rw [Nat.mul_comm _ 255]
  · exact mean_le hc.1 hs.1 hd.1
  · exact mean_le hc.2.1 hs.2.1 hd.2.1
  · exact mean_le hc.2.2 hs.2.2 hd.2.2

theorem px_ext {p q : Px} (hr : p.r.toNat = q.r.toNat) (hg : p.g.toNat = q.g.toNat) (hb : p.b.toNat = q.b.toNat)
    (ha : p.a.toNat = q.a.toNat) : p = q := by
  obtain ⟨pr, pg, pb, pa⟩ := p
  obtain ⟨qr, qg, qb, qa⟩ := q
  simp only [UInt8.toNat_inj] at hr hg hb ha
  rw [hr, hg, hb, ha]

/-- Drawing gives one pixel. -/
theorem composite_unique {m : Mode} {op : Nat} {s d p q : Px} (h1 : Composite m op s d p) (h2 : Composite m op s d q) :
    p = q := by
  unfold Composite at h1 h2
  dsimp only at h1 h2
  split at h1
  · rename_i h
    rw [if_pos h] at h2
    rw [h1, h2]
  · rename_i h
    rw [if_neg h] at h2
    obtain ⟨a1, r1, g1, b1⟩ := h1
    obtain ⟨a2, r2, g2, b2⟩ := h2
    exact px_ext (r1.trans r2.symm) (g1.trans g2.symm) (b1.trans b2.symm) (a1.trans a2.symm)

theorem draw_composite {m : Mode} {op : UInt8} {s d p : Px} (h : drawNN m op.toUInt32 s d = .ok p) :
    Composite m op.toNat s d p := by
  obtain ⟨q, hq, hc⟩ := C38_no_wrap m op s d
  rw [hq] at h
  cases h
  exact hc

theorem draw_of_composite {m : Mode} {op : UInt8} {s d p : Px} (h : Composite m op.toNat s d p) :
    drawNN m op.toUInt32 s d = .ok p := by
  obtain ⟨q, hq, hc⟩ := C38_no_wrap m op s d
  rw [hq, composite_unique hc h]

/-- A half transparent colour-burn pixel over a translucent backdrop. -/
example : drawNN (.sep .colorBurn) 200 ⟨200, 100, 50, 180⟩ ⟨10, 250, 128, 90⟩ = .ok ⟨103, 172, 53, 180⟩ := by rfl

/-! ## C39: scaling without division -/

/-- **C39** Multiplying by 32897 and shifting right by 23 bits divides a product of two bytes by 255, rounding down. -/
theorem C39_scaling (x y : UInt8) :
    ((x.toUInt32 * y.toUInt32 * 32897) >>> 23).toNat = x.toNat * y.toNat / 255 := by
  have h := mul255 x.toUInt32 y.toUInt32 (by rw [UInt8.toNat_toUInt32]; have := x.toNat_lt; omega)
    (by rw [UInt8.toNat_toUInt32]; have := y.toNat_lt; omega)
  rw [UInt8.toNat_toUInt32, UInt8.toNat_toUInt32] at h
  exact h

example : ((255 : UInt8).toUInt32 * (254 : UInt8).toUInt32 * 32897) >>> 23 = 254 := by decide

/-! ## C40: formulas -/

/-- **C40 (partial)** Every separable mode except soft light and hard mix is within one level of its documented formula for every
pair of channels; except for `Add`, whose sum is cut after mixing, the value stays in 0..255. Missing: soft light, which
is off by up to 17 levels (`C40_soft_light_is_off`, `C40_soft_light_partial`), and hard mix at its threshold. -/
theorem C40_formulas_partial (m : Sep) (h1 : m ≠ .softLight) (h2 : m ≠ .hardMix) (s d : UInt8) :
    ∃ v, chan8 m s.toUInt32 d.toUInt32 = .ok v ∧ (m ≠ .add → v.toNat ≤ 255) ∧
      |(v.toNat : ℝ) - 255 * formula m ((s.toNat : ℝ) / 255) ((d.toNat : ℝ) / 255)| ≤ 1 := by
  have es := UInt8.toNat_toUInt32 s
  have ed := UInt8.toNat_toUInt32 d
  have hs : s.toNat ≤ 255 := by have := s.toNat_lt; omega
  have hd : d.toNat ≤ 255 := by have := d.toNat_lt; omega
  obtain ⟨v, hv, ev⟩ := chan8_exact m s.toUInt32 d.toUInt32 (by omega) (by omega)
  rw [es, ed] at ev
  refine ⟨v, hv, fun hm => by rw [ev]; exact chanN_le m hm hs hd, ?_⟩
  rw [ev]
  have near : Near m := by
    cases m
    · exact near_normal
    · exact near_darken
    · exact near_multiply
    · exact near_colorBurn
    · exact near_linearBurn
    · exact near_lighten
    · exact near_screen
    · exact near_colorDodge
    · exact near_linearDodge
    · exact near_add
    · exact near_overlay
    · exact absurd rfl h1
    · exact near_hardLight
    · exact near_linearLight
    · exact near_vividLight
    · exact near_pinLight
    · exact absurd rfl h2
    · exact near_difference
    · exact near_exclusion
    · exact near_subtract
    · exact near_divide
  exact near _ _ hs hd

/-- **C40 (partial)** Hard mix gives 0 or 255 according to the documented threshold, unless the sum of the channels is
255 or 256 (the threshold itself and one level above). -/
theorem C40_hard_mix_partial (s d : UInt8) (h : s.toNat + d.toNat ≠ 255) (h' : s.toNat + d.toNat ≠ 256) :
    ∃ v, chan8 .hardMix s.toUInt32 d.toUInt32 = .ok v ∧
      (v.toNat : ℝ) = 255 * formula .hardMix ((s.toNat : ℝ) / 255) ((d.toNat : ℝ) / 255) := by
  have es := UInt8.toNat_toUInt32 s
  have ed := UInt8.toNat_toUInt32 d
  have hs : s.toNat ≤ 255 := by have := s.toNat_lt; omega
  have hd : d.toNat ≤ 255 := by have := d.toNat_lt; omega
  obtain ⟨v, hv, ev⟩ := chan8_exact .hardMix s.toUInt32 d.toUInt32 (by omega) (by omega)
  rw [es, ed] at ev
  refine ⟨v, hv, ?_⟩
  obtain ⟨lo, hi⟩ := hardMix_cases s.toNat d.toNat hs hd
  rw [ev]
  simp only [formula]
  by_cases hc : s.toNat + d.toNat < 255
  · have hc' : (s.toNat : ℝ) + d.toNat < 255 := by exact_mod_cast hc
    rw [lo hc, if_pos (by linarith)]
    norm_num
  · have hc' : (255 : ℝ) ≤ s.toNat + d.toNat := by exact_mod_cast (by omega : 255 ≤ s.toNat + d.toNat)
    rw [hi (by omega), if_neg (by linarith)]
    norm_num

/-- **C40, negated** At the threshold hard mix is black where the documented result is white. -/
theorem C40_hard_mix_is_off : ∃ s d : UInt8, chan8 .hardMix s.toUInt32 d.toUInt32 = .ok 0 ∧
    formula .hardMix ((s.toNat : ℝ) / 255) ((d.toNat : ℝ) / 255) = 1 := by
  refine ⟨128, 127, rfl, ?_⟩
  simp only [formula]
  rw [show (128 : UInt8).toNat = 128 from rfl, show (127 : UInt8).toNat = 127 from rfl]
  norm_num

/-- At the threshold the value does not follow the sum: 128 + 127 gives 0 although the documented result is white, and
the sum 256 gives 0 or 255 depending on which channel is larger. -/
example : chan8 .hardMix 128 127 = .ok 0 ∧ chan8 .hardMix 129 127 = .ok 0 ∧ chan8 .hardMix 127 129 = .ok 255 := by
  refine ⟨?_, ?_, ?_⟩ <;> rfl

/-- **C40 (partial)** Soft light is at most 17 levels below and 2 levels above its documented formula. -/
theorem C40_soft_light_partial (s d : UInt8) :
    ∃ v, chan8 .softLight s.toUInt32 d.toUInt32 = .ok v ∧ v.toNat ≤ 255 ∧
      -17 ≤ (v.toNat : ℝ) - 255 * formula .softLight ((s.toNat : ℝ) / 255) ((d.toNat : ℝ) / 255) ∧
      (v.toNat : ℝ) - 255 * formula .softLight ((s.toNat : ℝ) / 255) ((d.toNat : ℝ) / 255) ≤ 2 := by
  have es := UInt8.toNat_toUInt32 s
  have ed := UInt8.toNat_toUInt32 d
  have hs : s.toNat ≤ 255 := by have := s.toNat_lt; omega
  have hd : d.toNat ≤ 255 := by have := d.toNat_lt; omega
  obtain ⟨v, hv, ev⟩ := chan8_exact .softLight s.toUInt32 d.toUInt32 (by omega) (by omega)
  rw [es, ed] at ev
  refine ⟨v, hv, by rw [ev]; exact chanN_le _ (by decide) hs hd, ?_⟩
  rw [ev]
  exact near_softLight _ _ hs hd

/-- **C40, negated** Soft light does not compute its documented formula: for a light source over a dark backdrop it is
more than 16 levels too dark, because the polynomial's first factor is rounded to an integer. -/
theorem C40_soft_light_is_off : ∃ s d : UInt8, ∃ v, chan8 .softLight s.toUInt32 d.toUInt32 = .ok v ∧
    (v.toNat : ℝ) + 16 < 255 * formula .softLight ((s.toNat : ℝ) / 255) ((d.toNat : ℝ) / 255) := by
  obtain ⟨v, hv, ev⟩ := chan8_exact .softLight (252 : UInt8).toUInt32 (63 : UInt8).toUInt32 (by decide) (by decide)
  refine ⟨252, 63, v, hv, ?_⟩
  have : chanN .softLight (252 : UInt8).toUInt32.toNat (63 : UInt8).toUInt32.toNat = 109 := by decide +kernel
  rw [ev, this]
  simp only [formula]
  rw [show (252 : UInt8).toNat = 252 from rfl, show (63 : UInt8).toNat = 63 from rfl]
  norm_num

/-! ## C41: transparent sources -/

/-- **C41** A fully transparent source pixel, or opacity 0, leaves the destination as it is. -/
theorem C41_transparent_nrgba (m : Mode) (op : UInt8) (s d : Px) (h : s.a = 0 ∨ op = 0) :
    drawNN m op.toUInt32 s d = .ok d := by
  apply draw_of_composite
  unfold Composite
  dsimp only
  rw [if_pos]
  left
  rcases h with h | h
  · rw [h]; simp
  · rw [h]; simp

example : (⟨1, 2, 3, 0⟩ : Px).a = 0 ∨ (255 : UInt8) = 0 := .inl rfl

/-! ## C42: alpha -/

/-- The alpha of the result in integers. -/
theorem composite_alpha {m : Mode} {op : Nat} {s d p : Px} (h : Composite m op s d p) :
    (p = d ∧ (s.a.toNat * op / 255 = 0 ∨ s.a.toNat * op / 255 * d.a.toNat / 255 +
        s.a.toNat * op / 255 * (255 - d.a.toNat) / 255 + (255 - s.a.toNat * op / 255) * d.a.toNat / 255 = 0)) ∨
    p.a.toNat = s.a.toNat * op / 255 * d.a.toNat / 255 + s.a.toNat * op / 255 * (255 - d.a.toNat) / 255 +
      (255 - s.a.toNat * op / 255) * d.a.toNat / 255 := by
  unfold Composite at h
  dsimp only at h
  split at h
  · exact .inl ⟨h, by assumption⟩
  · exact .inr h.1

/-- **C42 (partial)** With `t` the effective source alpha (source alpha times opacity, rounded down), the result's alpha
is the union alpha `t + da - t*da/255` rounded down, or up to two below that. It is at most one below the backdrop's
alpha, and it is 255 exactly when the backdrop or the effective source is opaque. Missing: "never decreases", which is
false (`C42_alpha_can_decrease`). -/
theorem C42_alpha_partial (m : Mode) (op : UInt8) (s d p : Px) (h : drawNN m op.toUInt32 s d = .ok p) :
    let t := s.a.toNat * op.toNat / 255
    255 * p.a.toNat + t * d.a.toNat ≤ 255 * t + 255 * d.a.toNat ∧
    255 * t + 255 * d.a.toNat < 255 * (p.a.toNat + 3) + t * d.a.toNat ∧
    d.a.toNat ≤ p.a.toNat + 1 ∧
    (p.a = 255 ↔ t = 255 ∨ d.a = 255) := by
  have hc := composite_alpha (draw_composite h)
  have ht : s.a.toNat * op.toNat / 255 ≤ 255 :=
    mul_div_le255 (by have := s.a.toNat_lt; omega) (by have := op.toNat_lt; omega)
  dsimp only
  generalize s.a.toNat * op.toNat / 255 = t at hc ht ⊢
  have hda : d.a.toNat ≤ 255 := by have := d.a.toNat_lt; omega
  have e255 : ∀ x : UInt8, x = 255 ↔ x.toNat = 255 := fun x => UInt8.toNat_inj.symm
  rw [e255, e255]
  have m1 : t * d.a.toNat + t * (255 - d.a.toNat) = t * 255 := by rw [← Nat.mul_add]; congr 1; omega
  have m2 : t * d.a.toNat + (255 - t) * d.a.toNat = 255 * d.a.toNat := by rw [← Nat.add_mul]; congr 1; omega
  have m3 : t * d.a.toNat ≤ t * 255 := Nat.mul_le_mul_left _ hda
  have m4 : t * d.a.toNat ≤ 255 * d.a.toNat := Nat.mul_le_mul_right _ ht
  rcases hc with ⟨rfl, h0 | h0⟩ | hp
  · subst h0
    simp only [Nat.zero_mul]
    refine ⟨by omega, by omega, by omega, by omega⟩
  · refine ⟨by omega, by omega, by omega, ?_⟩
    constructor
    · exact .inr
    · rintro (h | h)
      · subst h
        exfalso
        omega
      · exact h
  · refine ⟨by omega, by omega, by omega, ?_⟩
    constructor
    · intro h255
      rw [hp] at h255
      by_contra hcon
      have hlt : t ≤ 254 ∧ d.a.toNat ≤ 254 := by omega
      have h1 : (255 - t) * d.a.toNat ≤ (255 - t) * 254 := Nat.mul_le_mul_left _ hlt.2
      omega
    · rintro (h | h)
      · subst h; omega
      · rw [h] at hp m1 m2; omega

/-- **C42** An opaque backdrop stays opaque. -/
theorem C42_opaque_backdrop (m : Mode) (op : UInt8) (s d p : Px) (h : drawNN m op.toUInt32 s d = .ok p)
    (hd : d.a = 255) : p.a = 255 := (C42_alpha_partial m op s d p h).2.2.2.2 (.inr hd)

/-- **C42, negated** The alpha can decrease: a source of alpha 1 over a backdrop of alpha 2 leaves alpha 1. -/
theorem C42_alpha_can_decrease : ∃ (op : UInt8) (s d p : Px), drawNN (.sep .normal) op.toUInt32 s d = .ok p ∧ p.a < d.a :=
  ⟨255, ⟨9, 9, 9, 1⟩, ⟨7, 7, 7, 2⟩, _, rfl, by decide⟩

example : drawNN (.sep .screen) (255 : UInt8).toUInt32 ⟨200, 100, 50, 128⟩ ⟨10, 20, 30, 255⟩ = .ok ⟨106, 66, 52, 255⟩ := by rfl

/-! ## C43: replacing -/

/-- **C43** Normal mode at full opacity with an opaque source stores the source pixel. -/
theorem C43_opaque_normal (s d : Px) (h : s.a = 255) : drawNN (.sep .normal) (255 : UInt8).toUInt32 s d = .ok s := by
  apply draw_of_composite
  have hda := d.a.toNat_lt
  unfold Composite
  rw [h]
  show (if _ then _ else _)
  have e1 : (255 : UInt8).toNat * (255 : UInt8).toNat / 255 = 255 := rfl
  rw [e1]
  have ea : 255 * d.a.toNat / 255 + 255 * (255 - d.a.toNat) / 255 + (255 - 255) * d.a.toNat / 255 = 255 := by omega
  rw [ea, if_neg (by decide)]
  have key : ∀ x y : UInt8, x.toNat = min 255 ((x.toNat * (255 * d.a.toNat / 255) + x.toNat * (255 * (255 - d.a.toNat) / 255) +
      y.toNat * ((255 - 255) * d.a.toNat / 255)) / 255) := by
    intro x y
    have hx := x.toNat_lt
    rw [← Nat.mul_add, show 255 * d.a.toNat / 255 + 255 * (255 - d.a.toNat) / 255 = 255 by omega,
      show (255 - 255) * d.a.toNat / 255 = 0 by omega, Nat.mul_zero, Nat.add_zero, Nat.mul_div_cancel _ (by decide)]
    omega
  exact ⟨rfl, key _ _, key _ _, key _ _⟩

/-- **C43** Onto a fully transparent pixel every blend mode stores the source colour, with the effective alpha. -/
theorem C43_onto_transparent (m : Mode) (op : UInt8) (s d : Px) (hd : d.a = 0) :
    s.a.toNat * op.toNat / 255 = 0 ∧ drawNN m op.toUInt32 s d = .ok d ∨
    drawNN m op.toUInt32 s d = .ok ⟨s.r, s.g, s.b, UInt8.ofNat (s.a.toNat * op.toNat / 255)⟩ := by
  by_cases h0 : s.a.toNat * op.toNat / 255 = 0
  · left
    refine ⟨h0, draw_of_composite ?_⟩
    unfold Composite
    dsimp only
    rw [if_pos (.inl h0)]
  · right
    apply draw_of_composite
    have ht : s.a.toNat * op.toNat / 255 ≤ 255 :=
      mul_div_le255 (by have := s.a.toNat_lt; omega) (by have := op.toNat_lt; omega)
    unfold Composite
    dsimp only
    generalize s.a.toNat * op.toNat / 255 = t at h0 ht ⊢
    rw [hd]
    have e0 : (0 : UInt8).toNat = 0 := rfl
    have e1 : t * (0 : UInt8).toNat / 255 = 0 := by rw [e0]; omega
    have e2 : t * (255 - (0 : UInt8).toNat) / 255 = t := by rw [e0]; omega
    have e3 : (255 - t) * (0 : UInt8).toNat / 255 = 0 := by rw [e0]; omega
    rw [e1, e2, e3, if_neg (by omega)]
    have key : ∀ (x y : UInt8) (c : Nat), x.toNat = min 255 ((c * 0 + x.toNat * t + y.toNat * 0) / (0 + t + 0)) := by
      intro x y c
      have hx := x.toNat_lt
      rw [Nat.mul_zero, Nat.mul_zero, Nat.zero_add, Nat.add_zero, Nat.zero_add, Nat.add_zero,
        Nat.mul_div_cancel _ (by omega)]
      omega
    refine ⟨?_, key _ _ _, key _ _ _, key _ _ _⟩
    rw [UInt8.toNat_ofNat']
    omega

example : drawNN (.nonSep .hue) (200 : UInt8).toUInt32 ⟨1, 2, 3, 100⟩ ⟨9, 9, 9, 0⟩ = .ok ⟨1, 2, 3, 78⟩ := by
  rcases C43_onto_transparent (.nonSep .hue) 200 ⟨1, 2, 3, 100⟩ ⟨9, 9, 9, 0⟩ rfl with ⟨h, _⟩ | h
  · exact absurd h (by decide)
  · rw [h]; decide

/-! ## C44: non-separable modes -/

/-- Luminosity and saturation as the compositing formulas use them. -/
def NonSep.base (m : NonSep) (s d : RGB Nat) : RGB Nat :=
  match m with
  | .hue => setSatN s (d.hi - d.lo)
  | .saturation => setSatN d (s.hi - s.lo)
  | .color => s
  | .luminosity => d

/-- Whose luminosity the result takes. -/
def NonSep.target (m : NonSep) (s d : RGB Nat) : Int :=
  match m with
  | .luminosity => lumZ s.r s.g s.b
  | _ => lumZ d.r d.g d.b

/-- **C44** The non-separable modes never divide by zero and stay in 0..255; when moving the base colour to the target
luminosity stays in range (no clipping), the result has exactly the target luminosity. -/
theorem C44_non_separable (m : NonSep) (s d : RGB UInt32) (hs : s.Byte) (hd : d.Byte) :
    ∃ v, blend8 (.nonSep m) s d = .ok v ∧ v.Byte ∧
      (let b := m.base s.nat d.nat
       let k := m.target s.nat d.nat - lumZ b.r b.g b.b
       (0 ≤ b.lo + k ∧ b.hi + k ≤ 255) →
         ((v.r.toNat : Int) = b.r + k ∧ (v.g.toNat : Int) = b.g + k ∧ (v.b.toNat : Int) = b.b + k) ∧
         lumZ v.r.toNat v.g.toNat v.b.toNat = m.target s.nat d.nat) := by
  obtain ⟨v, hv, ev⟩ := blend8_exact (.nonSep m) s d hs hd
  have hle := blendN_le (.nonSep m) (by simp) (s := s.nat) (d := d.nat) hs hd
  rw [← ev] at hle
  refine ⟨v, hv, hle, ?_⟩
  have e : blendN (.nonSep m) s.nat d.nat = setLumZ (m.base s.nat d.nat) (m.target s.nat d.nat) := by
    cases m <;> rfl
  rw [e] at ev
  dsimp only
  generalize m.base s.nat d.nat = b at ev ⊢
  generalize m.target s.nat d.nat = l at ev ⊢
  intro hk
  have er : v.r.toNat = (setLumZ b l).r := by rw [← ev]; rfl
  have eg : v.g.toNat = (setLumZ b l).g := by rw [← ev]; rfl
  have eb : v.b.toNat = (setLumZ b l).b := by rw [← ev]; rfl
  rw [er, eg, eb]
  unfold setLumZ clipZ
  dsimp only
  unfold RGB.lo RGB.hi at hk
  have n1 : ¬ min ((b.r : Int) + (l - lumZ b.r b.g b.b)) (min (b.g + (l - lumZ b.r b.g b.b)) (b.b + (l - lumZ b.r b.g b.b))) < 0 := by
    omega
  have n2 : ¬ 255 < max ((b.r : Int) + (l - lumZ b.r b.g b.b)) (max (b.g + (l - lumZ b.r b.g b.b)) (b.b + (l - lumZ b.r b.g b.b))) := by
    omega
  simp only [n1, n2, if_false]
  have f : ∀ x : Nat, x ≤ max b.r (max b.g b.b) → min b.r (min b.g b.b) ≤ x →
      ((max 0 (min ((x : Int) + (l - lumZ b.r b.g b.b)) 255)).toNat : Int) = x + (l - lumZ b.r b.g b.b) := by
    intro x h1 h2
    omega
  rw [f b.r (by omega) (by omega), f b.g (by omega) (by omega), f b.b (by omega) (by omega), lumZ_shift]
  exact ⟨⟨rfl, rfl, rfl⟩, by omega⟩

example : ∃ v, blend8 (.nonSep .color) ⟨120, 100, 90⟩ ⟨100, 110, 120⟩ = .ok v ∧
    lumZ v.r.toNat v.g.toNat v.b.toNat = lumZ 100 110 120 := ⟨_, rfl, by decide⟩

end Psd
