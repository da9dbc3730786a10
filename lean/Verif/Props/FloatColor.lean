import Verif.Lemmas.FloatColor
import Verif.Spec.Color
import Verif.Props.Pixel

/-
C115: the colours of 32-bit pictures.
-/

namespace Psd

open Spec

variable {F : Floats}

theorem u32_scale {r a : UInt32} (hr : r.toNat ≤ 65535) (ha : a.toNat ≤ 65535) : (r * a / 0xffff).toNat = r.toNat * a.toNat / 65535 := by
  have h : r.toNat * a.toNat ≤ 65535 * 65535 := Nat.mul_le_mul hr ha
  rw [UInt32.toNat_div, UInt32.toNat_mul, Nat.mod_eq_of_lt (by omega)]
  rfl

theorem scale_le_alpha {r a : UInt32} (hr : r.toNat ≤ 65535) (ha : a.toNat ≤ 65535) : (r * a / 0xffff).toNat ≤ a.toNat := by
  rw [u32_scale hr ha]
  have : r.toNat * a.toNat ≤ a.toNat * 65535 := by rw [Nat.mul_comm]; exact Nat.mul_le_mul_left _ hr
  exact Nat.div_le_of_le_mul (by omega)

theorem premulF_opaque {alpha : Fl} (h : alpha.GeOne) (r g b : UInt32) : F.premulF r g b alpha = ⟨r, g, b, 0xffff⟩ := by
  unfold Floats.premulF
  exact if_pos h

theorem premulF_clear {alpha : Fl} (h : alpha.LeZero) (r g b : UInt32) : F.premulF r g b alpha = ⟨0, 0, 0, 0⟩ := by
  unfold Floats.premulF
  have h' : ¬alpha.GeOne := by
    cases alpha with
    | fin x =>
      intro hc
      have h1 : (1 : ℝ) ≤ x := hc
      have h2 : x ≤ 0 := h
      linarith
    | nan => exact id
    | posInf => exact h.elim
    | negInf => exact id
  exact (if_neg h').trans (if_pos h)

theorem premulF_part {alpha : Fl} (h : ¬alpha.GeOne) (h' : ¬alpha.LeZero) (r g b : UInt32) :
    F.premulF r g b alpha = ⟨r * F.toU32 (alpha.scaled F.round32) / 0xffff, g * F.toU32 (alpha.scaled F.round32) / 0xffff,
      b * F.toU32 (alpha.scaled F.round32) / 0xffff, F.toU32 (alpha.scaled F.round32)⟩ := by
  unfold Floats.premulF
  exact (if_neg h).trans (if_neg h')

/-- The alpha of a translucent colour. -/
theorem alpha_near (hF : F.Faithful) {x : ℝ} (h0 : 0 ≤ x) (h1 : x ≤ 1) : (F.toU32 ((Fl.fin x).scaled F.round32)).toNat ≤ 65535 ∧
    65535 * x - 1.01 ≤ ((F.toU32 ((Fl.fin x).scaled F.round32)).toNat : ℝ) ∧ ((F.toU32 ((Fl.fin x).scaled F.round32)).toNat : ℝ) ≤ 65535 * x + 0.01 := by
  have z0 : 0 ≤ x * 65535 := by positivity
  have z1 : x * 65535 ≤ 65535 := by linarith
  obtain ⟨t, l0, l1⟩ := toU32_round (F := F) hF.mono32 hF.int32 z0 z1
  have sc := (scaled_near hF z0 z1).2
  obtain ⟨f0, f1⟩ := floor_between l0
  simp only [Fl.scaled]
  rw [t]
  rw [abs_le] at sc
  norm_num at sc
  refine ⟨?_, ?_, ?_⟩
  · have := Nat.floor_le_floor (R := ℝ) l1
    simpa using this
  · norm_num; linarith
  · norm_num; linarith

theorem premulF_contract (hF : F.Faithful) {r g b : UInt32} (hr : r.toNat ≤ 65535) (hg : g.toNat ≤ 65535) (hb : b.toNat ≤ 65535) {alpha : Fl}
    (ha : alpha ≠ .nan ∨ F.other .nan = 0) : Premultiplied (F.premulF r g b alpha) := by
  by_cases h1 : alpha.GeOne
  · rw [premulF_opaque h1]
    exact ⟨le_refl _, hr, hg, hb⟩
  · by_cases h0 : alpha.LeZero
    · rw [premulF_clear h0]
      exact ⟨by decide, by decide, by decide, by decide⟩
    · rw [premulF_part h1 h0]
      have hA : (F.toU32 (alpha.scaled F.round32)).toNat ≤ 65535 := by
        cases alpha with
        | posInf => exact absurd trivial h1
        | negInf => exact absurd trivial h0
        | nan =>
          rcases ha with h | h
          · exact absurd rfl h
          · show (F.other .nan).toNat ≤ _
            rw [h]; decide
        | fin x => exact (alpha_near hF (le_of_not_ge h0) (le_of_not_ge h1)).1
      exact ⟨hA, scale_le_alpha hr hA, scale_le_alpha hg hA, scale_le_alpha hb hA⟩

theorem rgba_contract (hF : F.Faithful) {c : FCol} (hp : ∀ x ∈ c.parts, (F.fromFloat x).toNat ≤ 65535) (ha : c.alpha ≠ .nan ∨ F.other .nan = 0) :
    Premultiplied (c.rgba F) := by
  cases c with
  | gray32 y =>
    have h := hp y (by simp [FCol.parts])
    exact ⟨le_refl _, h, h, h⟩
  | nGrayA64 y a =>
    have h := hp y (by simp [FCol.parts])
    exact premulF_contract hF h h h ha
  | nRGBA128 r g b a =>
    exact premulF_contract hF (hp r (by simp [FCol.parts])) (hp g (by simp [FCol.parts])) (hp b (by simp [FCol.parts])) ha

/-- **C115** (in part) `RGBA` of a colour with floating point components meets the contract of package image, if its components are amounts of light (not
negative, not NaN) and its alpha is not NaN, whatever their size.

Missing: NaN and negative components, for which it depends on the platform (`C115_contract_usual`, `C115_contract_can_fail`). -/
theorem C115_contract_partial (hF : F.Faithful) (c : FCol) (hp : ∀ x ∈ c.parts, x.Light) (ha : c.alpha ≠ .nan) : Premultiplied (c.rgba F) :=
  rgba_contract hF (fun x hx => (fromFloat_level hF (hp x hx)).1) (.inl ha)

theorem fromFloat_nan (h : F.root v = .nan) : F.fromFloat v = F.other .nan := by
  rw [fromFloat_part (by rw [h]; exact id) (by rw [h]; exact id), h]
  rfl

/-- **C115** On platforms that convert NaN to 0, as all usual ones do, every colour meets the contract. -/
theorem C115_contract_usual (hF : F.Faithful) (h : F.other .nan = 0) (c : FCol) : Premultiplied (c.rgba F) := by
  refine rgba_contract hF (fun x _ => ?_) (.inr h)
  cases x with
  | nan => rw [fromFloat_nan hF.root_nan, h]; decide
  | posInf => exact (fromFloat_level hF (v := .posInf) trivial).1
  | negInf => rw [fromFloat_full (by rw [hF.root_negInf]; trivial)]; decide
  | fin x =>
    by_cases hx : 0 ≤ x
    · exact (fromFloat_level hF (v := .fin x) hx).1
    · rw [fromFloat_nan (hF.root_neg x (lt_of_not_ge hx)), h]; decide

/-- **C115** depends on the platform: where NaN is converted to a number above 65535, no opaque colour with a negative component meets the contract. -/
theorem C115_contract_can_fail (hF : F.Faithful) (h : 65535 < (F.other .nan).toNat) (x : ℝ) (hx : x < 0) (g b a : Fl) (ha : a.GeOne) :
    ¬Premultiplied ((FCol.nRGBA128 (.fin x) g b a).rgba F) := by
  intro hc
  have e : ((FCol.nRGBA128 (.fin x) g b a).rgba F) = ⟨F.fromFloat (.fin x), F.fromFloat g, F.fromFloat b, 0xffff⟩ := premulF_opaque ha _ _ _
  rw [e, fromFloat_nan (hF.root_neg x hx)] at hc
  have := hc.2.1
  have h2 : (0xffff : UInt32).toNat = 65535 := rfl
  dsimp only at this
  omega

/-- A channel: the level times the opacity. -/
theorem channel_near (hF : F.Faithful) {v : Fl} (hv : v.Light) {x : ℝ} (h0 : 0 ≤ x) (h1 : x ≤ 1) :
    v.level * x - 3.02 ≤ ((F.fromFloat v * F.toU32 ((Fl.fin x).scaled F.round32) / 0xffff).toNat : ℝ) ∧
    ((F.fromFloat v * F.toU32 ((Fl.fin x).scaled F.round32) / 0xffff).toNat : ℝ) ≤ v.level * x + 0.02 := by
  obtain ⟨a1, a2, a3⟩ := alpha_near hF h0 h1
  obtain ⟨r1, r2, r3⟩ := fromFloat_level hF hv
  rw [u32_scale r1 a1]
  have l0 : 0 ≤ v.level := by
    cases v with
    | posInf => norm_num [Fl.level]
    | fin y =>
      have hy : 0 ≤ y := hv
      have : 0 ≤ min y 1 := le_min hy (by norm_num)
      unfold Fl.level
      positivity
    | nan => exact le_refl _
    | negInf => exact le_refl _
  have l1 : v.level ≤ 65535 := by
    cases v with
    | posInf => exact le_refl _
    | fin y =>
      have hy : 0 ≤ y := hv
      have := Real.rpow_le_one (le_min hy (by norm_num)) (min_le_right y 1) (show (0 : ℝ) ≤ 5 / 11 by norm_num)
      unfold Fl.level
      linarith
    | nan => norm_num [Fl.level]
    | negInf => norm_num [Fl.level]
  generalize v.level = L at *
  generalize (F.fromFloat v).toNat = R at *
  generalize (F.toU32 ((Fl.fin x).scaled F.round32)).toNat = A at *
  have R0 : (0 : ℝ) ≤ R := Nat.cast_nonneg R
  have A0 : (0 : ℝ) ≤ A := Nat.cast_nonneg A
  have A1 : (A : ℝ) ≤ 65535 := by exact_mod_cast a1
  have d1 : ((R * A / 65535 : Nat) : ℝ) * 65535 ≤ R * A := by exact_mod_cast Nat.div_mul_le_self (R * A) 65535
  have d2 : (R : ℝ) * A < (((R * A / 65535 : Nat) : ℝ) + 1) * 65535 := by
    have : R * A < (R * A / 65535 + 1) * 65535 := by omega
    exact_mod_cast this
  constructor
  · have m1 : (L - 1.01) * A ≤ R * A := mul_le_mul_of_nonneg_right r2 A0
    have m2 : L * (65535 * x - 1.01) ≤ L * A := mul_le_mul_of_nonneg_left a2 l0
    nlinarith
  · have m1 : (R : ℝ) * A ≤ (L + 0.01) * A := mul_le_mul_of_nonneg_right r3 A0
    have m2 : L * A ≤ L * (65535 * x + 0.01) := mul_le_mul_of_nonneg_left a3 l0
    nlinarith

/-- A number from the code is that of the specification, up to rounding: at most 3.02 below and 0.02 above. -/
def Shown (n : UInt32) (x : ℝ) : Prop := x - 3.02 ≤ n.toNat ∧ (n.toNat : ℝ) ≤ x + 0.02

theorem premulF_near (hF : F.Faithful) {r g b alpha : Fl} (hr : r.Light) (hg : g.Light) (hb : b.Light) (ha : alpha ≠ .nan) :
    Shown (F.premulF (F.fromFloat r) (F.fromFloat g) (F.fromFloat b) alpha).r (r.level * alpha.opacity) ∧
    Shown (F.premulF (F.fromFloat r) (F.fromFloat g) (F.fromFloat b) alpha).g (g.level * alpha.opacity) ∧
    Shown (F.premulF (F.fromFloat r) (F.fromFloat g) (F.fromFloat b) alpha).b (b.level * alpha.opacity) ∧
    Shown (F.premulF (F.fromFloat r) (F.fromFloat g) (F.fromFloat b) alpha).a (65535 * alpha.opacity) := by
  have full : ∀ {v : Fl}, v.Light → Shown (F.fromFloat v) (v.level * 1) := fun hv => by
    obtain ⟨_, h2, h3⟩ := fromFloat_level hF hv
    exact ⟨by norm_num at h2 ⊢; linarith, by norm_num at h3 ⊢; linarith⟩
  have none' : ∀ x : ℝ, Shown 0 (x * 0) := fun x => by
    unfold Shown
    norm_num
  by_cases h1 : alpha.GeOne
  · rw [premulF_opaque h1]
    have e : alpha.opacity = 1 := by
      cases alpha with
      | nan => exact h1.elim
      | negInf => exact h1.elim
      | posInf => rfl
      | fin x =>
        have : (1 : ℝ) ≤ x := h1
        simp [Fl.opacity, min_eq_right this]
    rw [e]
    refine ⟨full hr, full hg, full hb, ?_⟩
    unfold Shown
    norm_num
  · by_cases h0 : alpha.LeZero
    · rw [premulF_clear h0]
      have e : alpha.opacity = 0 := by
        cases alpha with
        | nan => exact h0.elim
        | negInf => rfl
        | posInf => exact h0.elim
        | fin x =>
          have h : x ≤ 0 := h0
          have : min x 1 ≤ 0 := le_trans (min_le_left _ _) h
          simp [Fl.opacity, max_eq_left this]
      rw [e]
      exact ⟨none' _, none' _, none' _, none' _⟩
    · rw [premulF_part h1 h0]
      cases alpha with
      | nan => exact absurd rfl ha
      | posInf => exact absurd trivial h1
      | negInf => exact absurd trivial h0
      | fin x =>
        have x0 : 0 ≤ x := le_of_not_ge h0
        have x1 : x ≤ 1 := le_of_not_ge h1
        have e : (Fl.fin x).opacity = x := by simp [Fl.opacity, min_eq_left x1, max_eq_right x0]
        rw [e]
        refine ⟨channel_near hF hr x0 x1, channel_near hF hg x0 x1, channel_near hF hb x0 x1, ?_⟩
        obtain ⟨_, h2, h3⟩ := alpha_near hF x0 x1
        exact ⟨by norm_num at h2 ⊢; linarith, by norm_num at h3 ⊢; linarith⟩

/-- **C115** (in part) `RGBA` shows a colour whose components are amounts of light at the levels that they have with a gamma of 2.2, times the opacity; light above 1
is shown as 1, alphas below 0 and above 1 as 0 and 1. The error is at most 3.02 of 65535.

Missing: components that are NaN, for which it depends on the platform, or negative, which are shown as black on usual platforms; minus infinity is shown as white
(`C115_minus_infinity_is_white`). -/
theorem C115_levels_partial (hF : F.Faithful) (c : FCol) (hp : ∀ x ∈ c.parts, x.Light) (ha : c.alpha ≠ .nan) :
    Shown (c.rgba F).r (c.levels.1 * c.alpha.opacity) ∧ Shown (c.rgba F).g (c.levels.2.1 * c.alpha.opacity) ∧
    Shown (c.rgba F).b (c.levels.2.2 * c.alpha.opacity) ∧ Shown (c.rgba F).a (65535 * c.alpha.opacity) := by
  cases c with
  | gray32 y =>
    have h := hp y (by simp [FCol.parts])
    have e : (FCol.gray32 y).rgba F = F.premulF (F.fromFloat y) (F.fromFloat y) (F.fromFloat y) (.fin 1) :=
      (premulF_opaque (alpha := .fin 1) (le_refl (1 : ℝ)) _ _ _).symm
    rw [e]
    exact premulF_near hF h h h ha
  | nGrayA64 y a =>
    have h := hp y (by simp [FCol.parts])
    exact premulF_near hF h h h ha
  | nRGBA128 r g b a =>
    exact premulF_near hF (hp r (by simp [FCol.parts])) (hp g (by simp [FCol.parts])) (hp b (by simp [FCol.parts])) ha

/-- **C115** Full light is shown as full, no light as none, exactly. -/
theorem C115_ends (hF : F.Faithful) (x : ℝ) : (1 ≤ x → F.fromFloat (.fin x) = 0xffff) ∧ F.fromFloat (.fin 0) = 0 := by
  constructor
  · intro h
    obtain ⟨y, e, hy⟩ := hF.root_ge_one x h
    exact fromFloat_full (by rw [e]; exact hy)
  · obtain ⟨y, e, h1, h2⟩ := hF.root_near 0 (le_refl _)
    rw [Real.zero_rpow (by norm_num)] at h1 h2
    have : y = 0 := by linarith
    rw [this] at e
    exact fromFloat_none (by rw [e]; show ¬(1 : ℝ) ≤ 0; norm_num) (by rw [e]; exact le_refl (0 : ℝ))

/-- **C115** is false of the smallest value: on every platform minus infinity is shown as white, while every negative number is shown as what the platform converts NaN to. -/
theorem C115_minus_infinity_is_white (hF : F.Faithful) :
    (FCol.nRGBA128 .negInf .negInf .negInf (.fin 1)).rgba F = ⟨0xffff, 0xffff, 0xffff, 0xffff⟩ ∧ (FCol.gray32 .negInf).rgba F = ⟨0xffff, 0xffff, 0xffff, 0xffff⟩ ∧
    ∀ x : ℝ, x < 0 → F.fromFloat (.fin x) = F.other .nan := by
  have e : F.fromFloat .negInf = 0xffff := fromFloat_full (by rw [hF.root_negInf]; trivial)
  refine ⟨?_, ?_, fun x hx => fromFloat_nan (hF.root_neg x hx)⟩
  · show F.premulF _ _ _ _ = _
    rw [premulF_opaque (alpha := .fin 1) (le_refl (1 : ℝ)), e]
  · simp only [FCol.rgba, e]

/-- **C115 The pictures.** `At` of a 32-bit RGB picture, with or without alpha, returns the colour whose components are the floating point numbers stored for that
column and row, in the order red, green, blue, alpha; without an alpha plane the colour is opaque. -/
theorem C115_picture (alpha : Bool) (pictures : List (List (List Nat))) (hn : pictures.length = if alpha then 4 else 3) (rect : Rect) (w h : Nat)
    (hdx : rect.dx = w) (hdy : rect.dy = h) (hshape : ∀ rows ∈ pictures, rows.length = h ∧ ∀ r ∈ rows, r.length = w ∧ ∀ v ∈ r, v < 256 ^ 4)
    (pal : List (UInt8 × UInt8 × UInt8 × UInt8)) (x y : Int) (hx : rect.minX ≤ x ∧ x < rect.maxX) (hy : rect.minY ≤ y ∧ y < rect.maxY) :
    let stored (i : Nat) : Fl := .ofBits ((((pictures.getD i []).getD (y - rect.minY).toNat []).getD (x - rect.minX).toNat 0))
    ∃ v, Picker.at ⟨.planes 3 4 alpha, rect, pictures.map (planeBytes 4), pal⟩ x y = .ok v ∧
      Picker.floatColour ⟨.planes 3 4 alpha, rect, pictures.map (planeBytes 4), pal⟩ v =
        some (.nRGBA128 (stored 0) (stored 1) (stored 2) (if alpha then stored 3 else .fin 1)) := by
  refine ⟨_, C33_pixels (.planes 3 4 alpha) 4 (.inr ⟨3, alpha, rfl⟩) pictures rect w h hdx hdy hshape pal x y hx hy, ?_⟩
  cases alpha with
  | true =>
    match pictures, hn with
    | [_, _, _, _], _ => rfl
  | false =>
    match pictures, hn with
    | [_, _, _], _ => rfl

/-- **C115** `At` of a 32-bit grey picture, without or with an alpha plane, likewise. Of a picture without, the pickers `kind` for layers and for merged pictures return different types. -/
theorem C115_grey_picture (pictures : List (List (List Nat))) (rect : Rect) (w h : Nat)
    (hdx : rect.dx = w) (hdy : rect.dy = h) (hshape : ∀ rows ∈ pictures, rows.length = h ∧ ∀ r ∈ rows, r.length = w ∧ ∀ v ∈ r, v < 256 ^ 4)
    (pal : List (UInt8 × UInt8 × UInt8 × UInt8)) (x y : Int) (hx : rect.minX ≤ x ∧ x < rect.maxX) (hy : rect.minY ≤ y ∧ y < rect.maxY) :
    let stored (i : Nat) : Fl := .ofBits ((((pictures.getD i []).getD (y - rect.minY).toNat []).getD (x - rect.minX).toNat 0))
    let colour (kind : PickerKind) (c : FCol) : Prop := ∃ v, Picker.at ⟨kind, rect, pictures.map (planeBytes 4), pal⟩ x y = .ok v ∧
      Picker.floatColour ⟨kind, rect, pictures.map (planeBytes 4), pal⟩ v = some c
    (pictures.length = 1 → colour (.gray 4) (.gray32 (stored 0)) ∧ colour (.planes 1 4 false) (.nGrayA64 (stored 0) (.fin 1))) ∧
    (pictures.length = 2 → colour (.planes 1 4 true) (.nGrayA64 (stored 0) (stored 1))) := by
  refine ⟨fun hn => ⟨⟨_, C33_pixels (.gray 4) 4 (.inl rfl) pictures rect w h hdx hdy hshape pal x y hx hy, ?_⟩,
    ⟨_, C33_pixels (.planes 1 4 false) 4 (.inr ⟨1, false, rfl⟩) pictures rect w h hdx hdy hshape pal x y hx hy, ?_⟩⟩,
    fun hn => ⟨_, C33_pixels (.planes 1 4 true) 4 (.inr ⟨1, true, rfl⟩) pictures rect w h hdx hdy hshape pal x y hx hy, ?_⟩⟩
  · match pictures, hn with
    | [_], _ => rfl
  · match pictures, hn with
    | [_], _ => rfl
  · match pictures, hn with
    | [_, _], _ => rfl

/-- The number with a given pattern below that of infinity. -/
theorem ofBits_pos (n : Nat) (h : n < 0x7f800000) : Fl.ofBits n = .fin ((if n / 2 ^ 23 = 0 then (n : ℝ) else (2 ^ 23 + (n % 2 ^ 23 : Nat)) * 2 ^ (n / 2 ^ 23 - 1)) / 2 ^ 149) := by
  have h1 : n / 2 ^ 31 % 2 = 0 := by omega
  have h2 : n / 2 ^ 23 % 256 = n / 2 ^ 23 := by omega
  have h3 : n / 2 ^ 23 ≠ 255 := by omega
  unfold Fl.ofBits
  simp only [h1, h2, if_true, if_neg h3]
  split
  · next he => rw [show n % 2 ^ 23 = n by omega, one_mul]
  · next he =>
    obtain ⟨k, hk⟩ : ∃ k, n / 2 ^ 23 = k + 1 := ⟨n / 2 ^ 23 - 1, by omega⟩
    congr 1
    rw [hk, Nat.add_sub_cancel, pow_succ]
    ring

/-- **C115** Which number a bit pattern stands for: pattern 0 stands for 0, every next pattern up to that of infinity for the number that is larger by the unit of its exponent (the smallest
exponent is used twice), patterns with the top bit for the negated numbers, and the patterns from that of infinity on for infinity and NaN. -/
theorem C115_stored_numbers :
    Fl.ofBits 0 = .fin 0 ∧
    (∀ n, n < 0x7f7fffff → ∃ x : ℝ, Fl.ofBits n = .fin x ∧ Fl.ofBits (n + 1) = .fin (x + 2 ^ (max (n / 2 ^ 23) 1) / 2 ^ 150)) ∧
    (∀ n (x : ℝ), n < 2 ^ 31 → Fl.ofBits n = .fin x → Fl.ofBits (2 ^ 31 + n) = .fin (-x)) ∧
    Fl.ofBits 0x7f800000 = .posInf ∧ Fl.ofBits 0xff800000 = .negInf ∧
    ∀ n, 0x7f800000 < n ∧ n < 0x80000000 ∨ 0xff800000 < n ∧ n < 0x100000000 → Fl.ofBits n = .nan := by
  refine ⟨by norm_num [Fl.ofBits], fun n h => ⟨_, ofBits_pos n (by omega), ?_⟩, fun n x h e => ?_, by norm_num [Fl.ofBits], by norm_num [Fl.ofBits], fun n h => ?_⟩
  · rw [ofBits_pos (n + 1) (by omega)]
    congr 1
    by_cases h0 : n / 2 ^ 23 = 0
    · rw [if_pos h0, h0]
      by_cases h1 : (n + 1) / 2 ^ 23 = 0
      · rw [if_pos h1]
        push_cast
        norm_num
        ring
      · have : n = 2 ^ 23 - 1 := by omega
        subst this
        norm_num
    · obtain ⟨k, hk⟩ : ∃ k, n / 2 ^ 23 = k + 1 := ⟨n / 2 ^ 23 - 1, by omega⟩
      rw [if_neg h0, if_neg (by omega), hk, Nat.add_sub_cancel, show max (k + 1) 1 = k + 1 by omega, pow_succ]
      by_cases h1 : (n + 1) / 2 ^ 23 = k + 1
      · rw [h1, Nat.add_sub_cancel, show (n + 1) % 2 ^ 23 = n % 2 ^ 23 + 1 by omega]
        push_cast
        ring
      · rw [show (n + 1) / 2 ^ 23 = k + 2 by omega, show (n + 1) % 2 ^ 23 = 0 by omega, show n % 2 ^ 23 = 2 ^ 23 - 1 by omega, show k + 2 - 1 = k + 1 by omega, pow_succ]
        norm_num
        ring
  · have h1 : n / 2 ^ 31 % 2 = 0 := by omega
    have h2 : (2 ^ 31 + n) / 2 ^ 31 % 2 = 1 := by omega
    have h3 : (2 ^ 31 + n) / 2 ^ 23 % 256 = n / 2 ^ 23 % 256 := by omega
    have h4 : (2 ^ 31 + n) % 2 ^ 23 = n % 2 ^ 23 := by omega
    unfold Fl.ofBits at e ⊢
    simp only [h1, h2, h3, h4, if_true, one_ne_zero, if_false] at e ⊢
    split at e
    · split at e <;> cases e
    · split at e
      · next h5 h6 =>
        injection e with e
        rw [if_neg h5, if_pos h6, ← e]
        congr 1
        ring
      · next h5 h6 =>
        injection e with e
        rw [if_neg h5, if_neg h6, ← e]
        congr 1
        ring
  · have h1 : n / 2 ^ 23 % 256 = 255 := by omega
    have h2 : n % 2 ^ 23 ≠ 0 := by omega
    unfold Fl.ofBits
    simp only [h1, if_true, if_pos h2]
/-- Exact real arithmetic, with `math.Pow` as documented: a platform that meets all the assumptions. -/
noncomputable def Floats.ideal : Floats where
  root
    | .nan => .nan
    | .posInf => .posInf
    | .negInf => .posInf
    | .fin x => open Classical in if x < 0 then .nan else .fin (x ^ (5 / 11 : ℝ))
  power
    | .nan => .nan
    | .posInf => .posInf
    | .negInf => .posInf
    | .fin x => open Classical in if x < 0 then .nan else .fin (x ^ (11 / 5 : ℝ))
  round32 := id
  round64 := id
  other _ := 0

theorem within_self {e x : ℝ} (he : 0 ≤ e) (hx : 0 ≤ x) : Within e x x := by
  have := mul_nonneg hx he
  constructor <;> linarith

/-- The assumptions can be met. -/
theorem Floats.ideal_faithful : Floats.ideal.Faithful where
  mono32 _ _ h := h
  mono64 _ _ h := h
  int32 _ _ := rfl
  int64 _ _ := rfl
  near32 x h _ := within_self (by norm_num) (le_trans (by norm_num) h)
  near64 x h _ := within_self (by norm_num) (le_trans (by norm_num) h)
  root_near x h := ⟨x ^ (5 / 11 : ℝ), if_neg (not_lt.mpr h), within_self (by norm_num) (Real.rpow_nonneg h _)⟩
  root_ge_one x h := ⟨x ^ (5 / 11 : ℝ), if_neg (by linarith), Real.one_le_rpow h (by norm_num)⟩
  root_neg x h := if_pos h
  root_nan := rfl
  root_posInf := rfl
  root_negInf := rfl
  power_near x h _ := ⟨x ^ (11 / 5 : ℝ), if_neg (not_lt.mpr h), within_self (by norm_num) (Real.rpow_nonneg h _)⟩
  power_one := by
    show (open Classical in if (1 : ℝ) < 0 then Fl.nan else Fl.fin ((1 : ℝ) ^ (11 / 5 : ℝ))) = _
    rw [if_neg (by norm_num), Real.one_rpow]

/-- The bit pattern 0x3f000000 is one half, 0xc0000000 minus two, 0x7f800000 infinity. -/
example : Fl.ofBits 0x3f000000 = .fin (1 / 2) ∧ Fl.ofBits 0xc0000000 = .fin (-2) ∧ Fl.ofBits 0x7f800000 = .posInf ∧ Fl.ofBits 0x7fc00000 = .nan := by
  refine ⟨?_, ?_, ?_, ?_⟩ <;> norm_num [Fl.ofBits]

/-- A translucent colour with a component brighter than white. -/
example : Premultiplied ((FCol.nRGBA128 (.fin 3) (.fin 0.25) (.fin 0) (.fin 0.5)).rgba Floats.ideal) :=
  C115_contract_partial Floats.ideal_faithful _ (by
    intro x hx
    simp only [FCol.parts, List.mem_cons, List.not_mem_nil, or_false] at hx
    rcases hx with rfl | rfl | rfl <;> norm_num [Fl.Light]) (by intro h; cases h)

/-- Two rows of one pixel: the second is one half, half opaque. -/
example : ∃ v, Picker.at ⟨.planes 1 4 true, ⟨0, 0, 1, 2⟩, [[[0], [0x3f000000]], [[0], [0x3f000000]]].map (planeBytes 4), []⟩ 0 1 = .ok v ∧
    Picker.floatColour ⟨.planes 1 4 true, ⟨0, 0, 1, 2⟩, [[[0], [0x3f000000]], [[0], [0x3f000000]]].map (planeBytes 4), []⟩ v = some (.nGrayA64 (.fin (1 / 2)) (.fin (1 / 2))) := by
  obtain ⟨v, h, e⟩ := (C115_grey_picture [[[0], [0x3f000000]], [[0], [0x3f000000]]] ⟨0, 0, 1, 2⟩ 1 2 rfl rfl (by decide) [] 0 1 (by decide) (by decide)).2 rfl
  refine ⟨v, h, e.trans ?_⟩
  show some (FCol.nGrayA64 (Fl.ofBits 0x3f000000) (Fl.ofBits 0x3f000000)) = _
  norm_num [Fl.ofBits]

end Psd
