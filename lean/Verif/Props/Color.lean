import Verif.Spec.Color
import Verif.Lemmas.Kernel8

/-
Colour types and colour models (C36, C37).
-/

namespace Psd

theorem mul16 {x a : Nat} (hx : x ≤ 65535) (ha : a ≤ 65535) : x * a ≤ 4294836225 := Nat.mul_le_mul hx ha

theorem scale16_le {x a : Nat} (hx : x ≤ 65535) : scale16 x a ≤ a := by
  unfold scale16
  have : x * a ≤ 65535 * a := Nat.mul_le_mul_right a hx
  omega

theorem scaleU16 (x a : UInt32) (hx : x.toNat ≤ 65535) (ha : a.toNat ≤ 65535) :
    (x * a / 0xffff).toNat = scale16 x.toNat a.toNat := by
  have := mul16 hx ha
  rw [UInt32.toNat_div, mulU _ _ (by omega)]
  rfl

/-- The shared tail of the `RGBA` methods, exactly. -/
theorem premul_exact (r g b a : UInt32) (hr : r.toNat ≤ 65535) (hg : g.toNat ≤ 65535) (hb : b.toNat ≤ 65535)
    (ha : a.toNat ≤ 65535) :
    (premul r g b a).r.toNat = scale16 r.toNat a.toNat ∧ (premul r g b a).g.toNat = scale16 g.toNat a.toNat ∧
    (premul r g b a).b.toNat = scale16 b.toNat a.toNat ∧ (premul r g b a).a.toNat = a.toNat := by
  unfold premul
  split
  · rename_i h
    subst h
    have f : ∀ x : Nat, x = scale16 x 65535 := fun x => by
      unfold scale16; rw [Nat.mul_div_cancel _ (by decide)]
    exact ⟨f _, f _, f _, rfl⟩
  · split
    · rename_i h
      subst h
      have f : ∀ x : Nat, 0 = scale16 x 0 := fun x => by
        unfold scale16; rw [Nat.mul_zero]
      exact ⟨f _, f _, f _, rfl⟩
    · exact ⟨scaleU16 _ _ hr ha, scaleU16 _ _ hg ha, scaleU16 _ _ hb ha, rfl⟩

theorem wide8 (x : UInt8) : (x.toUInt32 * 0x101).toNat = x.toNat * 257 := by
  have := x.toNat_lt
  rw [mulU _ _ (by rw [UInt8.toNat_toUInt32]; show _ * 257 < _; omega), UInt8.toNat_toUInt32]
  rfl

theorem le16 (x : UInt16) : x.toUInt32.toNat ≤ 65535 := by
  rw [UInt16.toNat_toUInt32]; have := x.toNat_lt; omega

theorem cmyk8 (x k : UInt8) : (x.toUInt32 * (k.toUInt32 * 0x10201) / 0xffff).toNat = scale16 (x.toNat * 257) (k.toNat * 257) := by
  have hx := x.toNat_lt
  have hk := k.toNat_lt
  have h1 : (k.toUInt32 * 0x10201).toNat = k.toNat * 66049 := by
    rw [mulU _ _ (by rw [UInt8.toNat_toUInt32]; show _ * 66049 < _; omega), UInt8.toNat_toUInt32]
    rfl
  have h2 : x.toNat * k.toNat ≤ 65025 := byte_mul (by omega) (by omega)
  have h3 : x.toNat * (k.toNat * 66049) = x.toNat * k.toNat * 66049 := by rw [Nat.mul_assoc]
  have h4 : x.toNat * 257 * (k.toNat * 257) = x.toNat * k.toNat * 66049 := by
    rw [Nat.mul_mul_mul_comm]
  rw [UInt32.toNat_div, mulU _ _ (by rw [h1, UInt8.toNat_toUInt32, h3]; omega), h1, UInt8.toNat_toUInt32, h3]
  unfold scale16
  rw [h4]
  rfl

/-- **C36** Every colour with integer components returns exactly its premultiplied colour (no 32-bit overflow), in range and with
components at most the alpha. -/
theorem C36_rgba (c : Col) (e : Nat × Nat × Nat × Nat) (he : c.exact = some e) :
    (c.rgba.r.toNat, c.rgba.g.toNat, c.rgba.b.toNat, c.rgba.a.toNat) = e ∧ Premultiplied c.rgba := by
  have fin : ∀ (v : RGBA32) (x y z a : Nat), v.r.toNat = scale16 x a ∧ v.g.toNat = scale16 y a ∧ v.b.toNat = scale16 z a ∧
      v.a.toNat = a → x ≤ 65535 → y ≤ 65535 → z ≤ 65535 → a ≤ 65535 →
      (v.r.toNat, v.g.toNat, v.b.toNat, v.a.toNat) = (scale16 x a, scale16 y a, scale16 z a, a) ∧ Premultiplied v := by
    rintro v x y z a ⟨h1, h2, h3, h4⟩ hx hy hz ha
    refine ⟨by rw [h1, h2, h3, h4], ?_⟩
    unfold Premultiplied
    rw [h1, h2, h3, h4]
    exact ⟨ha, scale16_le hx, scale16_le hy, scale16_le hz⟩
  cases c with
  | gray1 y => cases y <;> cases he <;> exact ⟨rfl, by unfold Premultiplied; decide⟩
  | nGrayA y a =>
    cases he
    have hy := y.toNat_lt
    have ha := a.toNat_lt
    have h := premul_exact (y.toUInt32 * 0x101) (y.toUInt32 * 0x101) (y.toUInt32 * 0x101) (a.toUInt32 * 0x101)
      (by rw [wide8]; omega) (by rw [wide8]; omega) (by rw [wide8]; omega) (by rw [wide8]; omega)
    rw [wide8, wide8] at h
    exact fin _ _ _ _ _ h (by omega) (by omega) (by omega) (by omega)
  | nGrayA32 y a =>
    cases he
    have h := premul_exact y.toUInt32 y.toUInt32 y.toUInt32 a.toUInt32 (le16 y) (le16 y) (le16 y) (le16 a)
    have hy := y.toNat_lt
    have ha := a.toNat_lt
    rw [UInt16.toNat_toUInt32, UInt16.toNat_toUInt32] at h
    exact fin _ _ _ _ _ h (by omega) (by omega) (by omega) (by omega)
  | nCMYKA c m y k a =>
    cases he
    have ha := a.toNat_lt
    have hk := k.toNat_lt
    have hb : ∀ x : UInt8, scale16 (x.toNat * 257) (k.toNat * 257) ≤ 65535 := fun x => by
      have := x.toNat_lt
      have := scale16_le (x := x.toNat * 257) (a := k.toNat * 257) (by omega)
      omega
    have h := premul_exact _ _ _ (a.toUInt32 * 0x101) (by rw [cmyk8]; exact hb c) (by rw [cmyk8]; exact hb m)
      (by rw [cmyk8]; exact hb y) (by rw [wide8]; omega)
    rw [cmyk8, cmyk8, cmyk8, wide8] at h
    exact fin _ _ _ _ _ h (hb c) (hb m) (hb y) (by omega)
  | nCMYKA80 c m y k a =>
    cases he
    have ha := a.toNat_lt
    have hk := k.toNat_lt
    have hb : ∀ x : UInt16, scale16 x.toNat k.toNat ≤ 65535 := fun x => by
      have := x.toNat_lt
      have := scale16_le (x := x.toNat) (a := k.toNat) (by omega)
      omega
    have e : ∀ x : UInt16, (x.toUInt32 * k.toUInt32 / 0xffff).toNat = scale16 x.toNat k.toNat := fun x => by
      rw [scaleU16 _ _ (le16 x) (le16 k), UInt16.toNat_toUInt32, UInt16.toNat_toUInt32]
    have h := premul_exact _ _ _ a.toUInt32 (by rw [e]; exact hb c) (by rw [e]; exact hb m) (by rw [e]; exact hb y) (le16 a)
    rw [e, e, e, UInt16.toNat_toUInt32] at h
    exact fin _ _ _ _ _ h (hb c) (hb m) (hb y) (by omega)
  | float k v => cases he
  | foreign v => cases he

example : (Col.nCMYKA 200 100 50 255 128).rgba = ⟨25800, 12900, 6450, 32896⟩ := by decide

/-! ## C37: colour models -/

/-- **C37, negated** Converting is not total: the CMYK model divides by the alpha of a fully transparent colour. -/
theorem C37_transparent_cmyk_panics (conv : FloatKind → RGBA32 → RGBA32) :
    ∃ c e, Premultiplied c.rgba ∧ ColorModel.convert conv .nCMYKA c = .panic e :=
  ⟨.foreign ⟨0, 0, 0, 0⟩, _, by unfold Premultiplied; decide, rfl⟩

/-- **C37, negated** Converting is not idempotent: the two grey models with alpha and the 16-bit CMYK model convert their
own results again, because they test for a different type. -/
theorem C37_not_idempotent (conv : FloatKind → RGBA32 → RGBA32) :
    (∃ c x y, Premultiplied c.rgba ∧ ColorModel.convert conv .nGrayA c = .ok x ∧ ColorModel.convert conv .nGrayA x = .ok y ∧ x ≠ y) ∧
    (∃ c x y, Premultiplied c.rgba ∧ ColorModel.convert conv .nGrayA32 c = .ok x ∧ ColorModel.convert conv .nGrayA32 x = .ok y ∧ x ≠ y) ∧
    (∃ c x y, Premultiplied c.rgba ∧ ColorModel.convert conv .nCMYKA80 c = .ok x ∧ ColorModel.convert conv .nCMYKA80 x = .ok y ∧ x ≠ y) := by
  refine ⟨⟨.foreign ⟨2, 2, 2, 256⟩, .nGrayA 1 1, .nGrayA 0 1, ?_, rfl, rfl, by decide⟩,
    ⟨.foreign ⟨1, 1, 1, 2⟩, .nGrayA32 32767 2, .nGrayA32 0 2, ?_, rfl, rfl, by decide⟩,
    ⟨.foreign ⟨30000, 20000, 10000, 40000⟩, _, _, ?_, rfl, rfl, by decide⟩⟩ <;> unfold Premultiplied <;> decide

/-- **C37, negated** A model can return a colour of another model's type. -/
theorem C37_wrong_type (conv : FloatKind → RGBA32 → RGBA32) (v : RGBA32) (c m y k a : UInt8) :
    ColorModel.convert conv .nGrayA (.float .nGrayA64 v) = .ok (.float .nGrayA64 v) ∧
    ColorModel.convert conv .nCMYKA80 (.nCMYKA c m y k a) = .ok (.nCMYKA c m y k a) := ⟨rfl, rfl⟩

/-- **C37 (partial)** Converting does not panic, except to 8-bit CMYK from a fully transparent colour. -/
theorem C37_total_partial (conv : FloatKind → RGBA32 → RGBA32) (m : ColorModel) (c : Col)
    (h : m = .nCMYKA → c.rgba.a ≠ 0) : ∃ x, m.convert conv c = .ok x := by
  have dok : ∀ a b : UInt32, b ≠ 0 → divU32 a b = .ok (a / b) := fun a b hb => by
    unfold divU32; rw [if_neg hb]
  have fl : ∀ k, ∃ x, floatModel conv k c = .ok x := fun k => by
    unfold floatModel
    split
    · split <;> exact ⟨_, rfl⟩
    · exact ⟨_, rfl⟩
  cases m
  case gray1 =>
    show ∃ x, gray1Model c = .ok x
    unfold gray1Model
    split <;> exact ⟨_, rfl⟩
  case nGrayA =>
    show ∃ x, nGrayAModel c = .ok x
    unfold nGrayAModel
    split
    · exact ⟨_, rfl⟩
    · dsimp only
      split
      · exact ⟨_, rfl⟩
      · split
        · exact ⟨_, rfl⟩
        · rename_i h0 _
          rw [dok _ _ h0]
          exact ⟨_, rfl⟩
  case nGrayA32 =>
    show ∃ x, nGrayA32Model c = .ok x
    unfold nGrayA32Model
    split
    · exact ⟨_, rfl⟩
    · dsimp only
      split
      · exact ⟨_, rfl⟩
      · split
        · exact ⟨_, rfl⟩
        · rename_i h0 _
          rw [dok _ _ h0]
          exact ⟨_, rfl⟩
  case gray32 => exact fl _
  case nGrayA64 => exact fl _
  case nRGBA128 => exact fl _
  case nCMYKA =>
    show ∃ x, nCMYKAModel c = .ok x
    have h0 := h rfl
    unfold nCMYKAModel
    split
    · exact ⟨_, rfl⟩
    · have : ∃ q, rgbToCMYK (shr c.rgba.r 8).toUInt8 (shr c.rgba.g 8).toUInt8 (shr c.rgba.b 8).toUInt8 = .ok q := by
        unfold rgbToCMYK
        dsimp only
        generalize (if (if (shr c.rgba.r 8).toUInt8.toUInt32 < (shr c.rgba.g 8).toUInt8.toUInt32 then
            (shr c.rgba.g 8).toUInt8.toUInt32 else (shr c.rgba.r 8).toUInt8.toUInt32) < (shr c.rgba.b 8).toUInt8.toUInt32 then
            (shr c.rgba.b 8).toUInt8.toUInt32 else
            (if (shr c.rgba.r 8).toUInt8.toUInt32 < (shr c.rgba.g 8).toUInt8.toUInt32 then
            (shr c.rgba.g 8).toUInt8.toUInt32 else (shr c.rgba.r 8).toUInt8.toUInt32) : UInt32) = w
        split
        · exact ⟨_, rfl⟩
        · rename_i hw
          rw [dok _ _ hw, dok _ _ hw, dok _ _ hw]
          exact ⟨_, rfl⟩
      obtain ⟨⟨c1, c2, c3, c4⟩, hq⟩ := this
      simp only [hq, Res.ok_bind, dok _ _ h0]
      exact ⟨_, rfl⟩
  case nCMYKA80 =>
    show ∃ x, nCMYKA80Model c = .ok x
    unfold nCMYKA80Model
    split
    · exact ⟨_, rfl⟩
    · dsimp only
      split
      · exact ⟨_, rfl⟩
      · rename_i h0
        split
        · exact ⟨_, rfl⟩
        · rename_i hw
          simp only [dok _ _ hw, Res.ok_bind]
          split
          · exact ⟨_, rfl⟩
          · simp only [dok _ _ h0, Res.ok_bind]
            exact ⟨_, rfl⟩

theorem grayY_le (v : RGBA32) (h : Premultiplied v) : (grayY v).toNat =
    (299 * v.r.toNat + 587 * v.g.toNat + 114 * v.b.toNat + 500) / 1000 := by
  obtain ⟨h0, h1, h2, h3⟩ := h
  unfold grayY
  have e1 : (299 * v.r).toNat = 299 * v.r.toNat := mulU 299 v.r (by show 299 * _ < _; omega)
  have e2 : (587 * v.g).toNat = 587 * v.g.toNat := mulU 587 v.g (by show 587 * _ < _; omega)
  have e3 : (114 * v.b).toNat = 114 * v.b.toNat := mulU 114 v.b (by show 114 * _ < _; omega)
  have e4 := addU (299 * v.r) (587 * v.g) (by omega)
  have e5 := addU (299 * v.r + 587 * v.g) (114 * v.b) (by omega)
  have e6 : (299 * v.r + 587 * v.g + 114 * v.b + 500).toNat = _ := addU _ 500 (by show _ + 500 < _; omega)
  rw [UInt32.toNat_div, e6, e5, e4, e1, e2, e3]
  rfl

/-- The luminance of a grey colour is its component. -/
theorem grayY_gray (x : UInt32) (hx : x.toNat ≤ 65535) : grayY ⟨x, x, x, 0xffff⟩ = x := by
  apply UInt32.toNat_inj.1
  have hp : Premultiplied ⟨x, x, x, 0xffff⟩ := ⟨Nat.le_refl 65535, hx, hx, hx⟩
  rw [grayY_le _ hp]
  dsimp only
  omega

theorem max_ge (v : RGBA32) : v.r.toNat ≤ (rgbaMax v).toNat ∧ v.g.toNat ≤ (rgbaMax v).toNat ∧ v.b.toNat ≤ (rgbaMax v).toNat ∧
    (rgbaMax v = v.r ∨ rgbaMax v = v.g ∨ rgbaMax v = v.b) := by
  unfold rgbaMax
  dsimp only
  by_cases h1 : v.r < v.g
  · rw [if_pos h1]
    have h1 := ltU.1 h1
    by_cases h2 : v.g < v.b
    · rw [if_pos h2]; have h2 := ltU.1 h2; exact ⟨by omega, by omega, by omega, .inr (.inr rfl)⟩
    · rw [if_neg h2]; have h2 : ¬ v.g.toNat < v.b.toNat := fun h => h2 (ltU.2 h); exact ⟨by omega, by omega, by omega, .inr (.inl rfl)⟩
  · rw [if_neg h1]
    have h1 : ¬ v.r.toNat < v.g.toNat := fun h => h1 (ltU.2 h)
    by_cases h2 : v.r < v.b
    · rw [if_pos h2]; have h2 := ltU.1 h2; exact ⟨by omega, by omega, by omega, .inr (.inr rfl)⟩
    · rw [if_neg h2]; have h2 : ¬ v.r.toNat < v.b.toNat := fun h => h2 (ltU.2 h); exact ⟨by omega, by omega, by omega, .inl rfl⟩

/-- The CMYK component of an opaque colour, multiplied by K, is the colour again. -/
theorem cmyk_back (x w : UInt32) (hx : x.toNat ≤ w.toNat) (hw : w.toNat ≤ 65535) (h0 : 0 < w.toNat) :
    (0xffff - (w - x) * 0xffff / w).toUInt16.toUInt32 * w / 0xffff = x := by
  have e1 := subU w x hx
  have m1 : (w.toNat - x.toNat) * 65535 ≤ 4294836225 := mul16 (by omega) (by omega)
  have e2 : ((w - x) * 0xffff).toNat = (w.toNat - x.toNat) * 65535 := by
    rw [mulU _ _ (by rw [e1, n65535]; omega), e1, n65535]
  have e3 : ((w - x) * 0xffff / w).toNat = (w.toNat - x.toNat) * 65535 / w.toNat := by rw [UInt32.toNat_div, e2]
  have q1 : (w.toNat - x.toNat) * 65535 / w.toNat ≤ 65535 := by
    apply Nat.div_le_of_le_mul
    exact Nat.mul_le_mul_right _ (by omega)
  have e4 : (0xffff - (w - x) * 0xffff / w).toNat = 65535 - (w.toNat - x.toNat) * 65535 / w.toNat := by
    have := subU 0xffff ((w - x) * 0xffff / w) (by rw [e3, n65535]; exact q1)
    rw [this, e3, n65535]
  have e5 : (0xffff - (w - x) * 0xffff / w).toUInt16.toUInt32.toNat = 65535 - (w.toNat - x.toNat) * 65535 / w.toNat := by
    rw [UInt16.toNat_toUInt32, UInt32.toNat_toUInt16, e4]
    omega
  apply UInt32.toNat_inj.1
  rw [scaleU16 _ _ (by omega) hw, e5]
  generalize hq : (w.toNat - x.toNat) * 65535 / w.toNat = q at *
  have b1 : q * w.toNat ≤ (w.toNat - x.toNat) * 65535 := by rw [← hq]; exact Nat.div_mul_le_self _ _
  have b2 : (w.toNat - x.toNat) * 65535 < (q + 1) * w.toNat := by
    have := Nat.lt_mul_div_succ ((w.toNat - x.toNat) * 65535) h0
    rw [hq, Nat.mul_comm w.toNat] at this
    exact this
  unfold scale16
  have b3 : (65535 - q) * w.toNat + q * w.toNat = 65535 * w.toNat := by
    rw [← Nat.add_mul, Nat.sub_add_cancel q1]
  rw [Nat.add_mul] at b2
  omega

theorem cmyk80_back (v : RGBA32) (hc : Premultiplied v) (ha : v.a = 0xffff) (hw : rgbaMax v ≠ 0) :
    (Col.nCMYKA80 (0xffff - (rgbaMax v - v.r) * 0xffff / rgbaMax v).toUInt16
      (0xffff - (rgbaMax v - v.g) * 0xffff / rgbaMax v).toUInt16
      (0xffff - (rgbaMax v - v.b) * 0xffff / rgbaMax v).toUInt16
      (0xffff - (0xffff - rgbaMax v)).toUInt16 0xffff).rgba = v := by
  obtain ⟨p1, p2, p3, p4⟩ := hc
  obtain ⟨g1, g2, g3, g4⟩ := max_ge v
  have hle : (rgbaMax v).toNat ≤ 65535 := by rcases g4 with h | h | h <;> rw [h] <;> omega
  have hpos : 0 < (rgbaMax v).toNat := Nat.pos_of_ne_zero fun h => hw (UInt32.toNat_inj.1 h)
  have ek : (0xffff - (0xffff - rgbaMax v)).toUInt16.toUInt32 = rgbaMax v := by
    have e1 : (0xffff - rgbaMax v).toNat = 65535 - (rgbaMax v).toNat := by
      rw [subU _ _ (by rw [n65535]; exact hle), n65535]
    apply UInt32.toNat_inj.1
    rw [UInt16.toNat_toUInt32, UInt32.toNat_toUInt16, subU _ _ (by rw [e1, n65535]; omega), e1, n65535]
    omega
  simp only [Col.rgba]
  rw [ek, cmyk_back _ _ g1 hle hpos, cmyk_back _ _ g2 hle hpos, cmyk_back _ _ g3 hle hpos]
  unfold premul
  rw [if_pos (by decide)]
  show RGBA32.mk v.r v.g v.b 0xffff = v
  rw [← ha]

/-- **C37 (partial)** Converting an opaque colour twice equals converting it once, in every model. -/
theorem C37_idempotent_partial (conv : FloatKind → RGBA32 → RGBA32) (m : ColorModel) (c x : Col)
    (hc : Premultiplied c.rgba) (ha : c.rgba.a = 0xffff) (h : m.convert conv c = .ok x) : m.convert conv x = .ok x := by
  have h0 : c.rgba.a ≠ 0 := by rw [ha]; decide
  have fl : ∀ k, floatModel conv k c = .ok x → floatModel conv k x = .ok x := by
    intro k h
    unfold floatModel at h
    split at h
    · split at h
      · cases h; unfold floatModel; simp_all
      · cases h; unfold floatModel; simp
    · cases h; unfold floatModel; simp
  have hY := grayY_le c.rgba hc
  cases m
  case gray1 =>
    change gray1Model c = .ok x at h
    show gray1Model x = .ok x
    unfold gray1Model at h
    split at h <;> cases h <;> rfl
  case gray32 => exact fl _ h
  case nGrayA64 => exact fl _ h
  case nRGBA128 => exact fl _ h
  case nGrayA =>
    change nGrayAModel c = .ok x at h
    show nGrayAModel x = .ok x
    unfold nGrayAModel at h
    split at h
    · cases h; rfl
    · dsimp only at h
      rw [if_neg h0, if_pos ha] at h
      cases h
      obtain ⟨p1, p2, p3, p4⟩ := hc
      have hy : (shr (grayY c.rgba) 8).toUInt8.toNat ≤ 255 := by have := (shr (grayY c.rgba) 8).toUInt8.toNat_lt; omega
      generalize (shr (grayY c.rgba) 8).toUInt8 = y at hy
      have er : (Col.nGrayA y 0xff).rgba = ⟨y.toUInt32 * 0x101, y.toUInt32 * 0x101, y.toUInt32 * 0x101, 0xffff⟩ := rfl
      simp only [nGrayAModel]
      rw [er, if_neg (show ¬ (0xffff : UInt32) = 0 by decide), if_pos rfl, grayY_gray _ (by rw [wide8]; omega)]
      have : (shr (y.toUInt32 * 0x101) 8).toUInt8 = y := by
        apply UInt8.toNat_inj.1
        rw [UInt32.toNat_toUInt8, shr8, wide8, show y.toNat * 257 / 256 = y.toNat by omega]
        omega
      rw [this]
  case nGrayA32 =>
    change nGrayA32Model c = .ok x at h
    show nGrayA32Model x = .ok x
    unfold nGrayA32Model at h
    split at h
    · cases h; rfl
    · dsimp only at h
      rw [if_neg h0, if_pos ha] at h
      cases h
      generalize (grayY c.rgba).toUInt16 = y
      have er : (Col.nGrayA32 y 0xffff).rgba = ⟨y.toUInt32, y.toUInt32, y.toUInt32, 0xffff⟩ := rfl
      simp only [nGrayA32Model]
      rw [er, if_neg (show ¬ (0xffff : UInt32) = 0 by decide), if_pos rfl, grayY_gray _ (le16 y)]
      have : y.toUInt32.toUInt16 = y := by
        apply UInt16.toNat_inj.1
        rw [UInt32.toNat_toUInt16, UInt16.toNat_toUInt32]
        have := y.toNat_lt
        omega
      rw [this]
  case nCMYKA =>
    change nCMYKAModel c = .ok x at h
    show nCMYKAModel x = .ok x
    unfold nCMYKAModel at h
    split at h
    · cases h; rfl
    · obtain ⟨q, _, h⟩ := Res.bind_eq_ok.1 h
      obtain ⟨_, _, h⟩ := Res.bind_eq_ok.1 h
      obtain ⟨_, _, h⟩ := Res.bind_eq_ok.1 h
      obtain ⟨_, _, h⟩ := Res.bind_eq_ok.1 h
      obtain ⟨_, _, h⟩ := Res.bind_eq_ok.1 h
      cases h
      rfl
  case nCMYKA80 =>
    change nCMYKA80Model c = .ok x at h
    show nCMYKA80Model x = .ok x
    unfold nCMYKA80Model at h
    split at h
    · cases h; rfl
    · dsimp only at h
      rw [if_neg h0] at h
      have dok : ∀ a b : UInt32, b ≠ 0 → divU32 a b = .ok (a / b) := fun a b hb => by
        unfold divU32; rw [if_neg hb]
      by_cases hw : rgbaMax c.rgba = 0
      · rw [if_pos hw, ha] at h
        cases h
        rfl
      · rw [if_neg hw] at h
        simp only [dok _ _ hw, Res.ok_bind] at h
        rw [if_pos ha] at h
        cases h
        have er := cmyk80_back c.rgba hc ha hw
        simp only [nCMYKA80Model]
        rw [er, if_neg h0, if_neg hw]
        simp only [dok _ _ hw, Res.ok_bind]
        rw [if_pos ha]

/-- An opaque orange converted to 16-bit CMYK, and again. -/
example (conv : FloatKind → RGBA32 → RGBA32) :
    ∃ x, ColorModel.convert conv .nCMYKA80 (.foreign ⟨60000, 30000, 10000, 0xffff⟩) = .ok x ∧
      ColorModel.convert conv .nCMYKA80 x = .ok x ∧ x.rgba = ⟨60000, 30000, 10000, 0xffff⟩ := ⟨_, rfl, rfl, rfl⟩

/-! ## C70: opaque colours survive the CMYK models -/

/-- **C70, negated** The 16-bit CMYK model turns opaque black into opaque white. -/
theorem C70_black_becomes_white (conv : FloatKind → RGBA32 → RGBA32) :
    ∃ x, ColorModel.convert conv .nCMYKA80 (.foreign ⟨0, 0, 0, 0xffff⟩) = .ok x ∧ x.rgba = ⟨0xffff, 0xffff, 0xffff, 0xffff⟩ :=
  ⟨_, rfl, rfl⟩

/-- **C70 (partial)** Every opaque colour except black is preserved by the 16-bit CMYK model: the converted colour has
the same red, green, blue and alpha. -/
theorem C70_opaque_preserved_partial (conv : FloatKind → RGBA32 → RGBA32) (c : Col) (hc : Premultiplied c.rgba)
    (ha : c.rgba.a = 0xffff) (hb : c.rgba.r ≠ 0 ∨ c.rgba.g ≠ 0 ∨ c.rgba.b ≠ 0) :
    ∃ x, ColorModel.convert conv .nCMYKA80 c = .ok x ∧ x.rgba = c.rgba := by
  show ∃ x, nCMYKA80Model c = .ok x ∧ x.rgba = c.rgba
  unfold nCMYKA80Model
  split
  · exact ⟨_, rfl, rfl⟩
  · rename_i c' _
    dsimp only
    have h0 : c.rgba.a ≠ 0 := by rw [ha]; decide
    have dok : ∀ a b : UInt32, b ≠ 0 → divU32 a b = .ok (a / b) := fun a b hb => by
      unfold divU32; rw [if_neg hb]
    obtain ⟨g1, g2, g3, g4⟩ := max_ge c.rgba
    have hw : rgbaMax c.rgba ≠ 0 := by
      intro h
      rw [h, n0] at g1 g2 g3
      rcases hb with hb | hb | hb
      · exact hb (UInt32.toNat_inj.1 (by rw [n0]; omega))
      · exact hb (UInt32.toNat_inj.1 (by rw [n0]; omega))
      · exact hb (UInt32.toNat_inj.1 (by rw [n0]; omega))
    rw [if_neg h0, if_neg hw]
    simp only [dok _ _ hw, Res.ok_bind]
    rw [if_pos ha]
    refine ⟨_, rfl, ?_⟩
    exact cmyk80_back c.rgba hc ha hw

end Psd
