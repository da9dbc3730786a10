import Verif.Props.Color
import Verif.Lemmas.Chan16

/-!
# C73: conversion to grey keeps the luminance
-/

namespace Psd

/-- The luminance of a colour in thousandths: 0.299 red + 0.587 green + 0.114 blue. -/
def lumaMilli (v : RGBA32) : Nat := 299 * v.r.toNat + 587 * v.g.toNat + 114 * v.b.toNat

theorem grayY_toNat {v : RGBA32} (h : Premultiplied v) : (grayY v).toNat = (lumaMilli v + 500) / 1000 := by
  obtain ⟨h1, h2, h3, h4⟩ := h
  unfold grayY lumaMilli
  have e1 : (299 * v.r).toNat = 299 * v.r.toNat := mulU 299 v.r (by show 299 * v.r.toNat < _; omega)
  have e2 : (587 * v.g).toNat = 587 * v.g.toNat := mulU 587 v.g (by show 587 * v.g.toNat < _; omega)
  have e3 : (114 * v.b).toNat = 114 * v.b.toNat := mulU 114 v.b (by show 114 * v.b.toNat < _; omega)
  rw [UInt32.toNat_div, UInt32.toNat_add, UInt32.toNat_add, UInt32.toNat_add, e1, e2, e3]
  show ((((299 * v.r.toNat + 587 * v.g.toNat) % 2 ^ 32 + 114 * v.b.toNat) % 2 ^ 32 + 500) % 2 ^ 32) / 1000 = _
  omega

theorem gray_le {v : RGBA32} (h : Premultiplied v) : (lumaMilli v + 500) / 1000 ≤ v.a.toNat := by
  obtain ⟨h1, h2, h3, h4⟩ := h
  unfold lumaMilli
  omega

/-- **C73** To black and white: white exactly if the luminance, rounded, is in the upper half. -/
theorem C73_gray1 (conv : FloatKind → RGBA32 → RGBA32) (c : Col) (hp : Premultiplied c.rgba) :
    ∃ w, ColorModel.convert conv .gray1 c = .ok (.gray1 w) ∧ (w = true ↔ 32767500 ≤ lumaMilli c.rgba) := by
  have key : (grayY c.rgba ≥ 0x8000) ↔ 32767500 ≤ lumaMilli c.rgba := by
    have h : (grayY c.rgba ≥ 0x8000) ↔ 32768 ≤ (grayY c.rgba).toNat := Iff.rfl
    rw [h, grayY_toNat hp]
    omega
  cases c with
  | gray1 y => exact ⟨y, rfl, by cases y <;> decide⟩
  | _ => exact ⟨_, rfl, by rw [decide_eq_true_iff, key]⟩

/-- The shade of a colour before it was multiplied by its alpha. -/
def shadeOf (v : RGBA32) : Nat := (lumaMilli v + 500) / 1000 * 65535 / v.a.toNat

theorem shade_le {v : RGBA32} (h : Premultiplied v) : shadeOf v ≤ 65535 := by
  unfold shadeOf
  have := Nat.mul_le_mul_right 65535 (gray_le h)
  exact Nat.div_le_of_le_mul this

theorem grays (c : Col) (hp : Premultiplied c.rgba) (hc : ∀ v, c ≠ .float .nGrayA64 v) :
    (∃ y a : UInt16, nGrayA32Model c = .ok (.nGrayA32 y a) ∧ y.toNat = shadeOf c.rgba ∧ a.toNat = c.rgba.a.toNat) ∧
    ∃ y a : UInt8, nGrayAModel c = .ok (.nGrayA y a) ∧ y.toNat = shadeOf c.rgba / 256 ∧ a.toNat = c.rgba.a.toNat / 256 := by
  have e32 : nGrayA32Model c = (let v := c.rgba
    if v.a = 0 then .ok (.nGrayA32 0 0)
    else if v.a = 0xffff then .ok (.nGrayA32 (grayY v).toUInt16 0xffff)
    else do
      let y ← divU32 (grayY v * 0xffff) v.a
      .ok (.nGrayA32 y.toUInt16 v.a.toUInt16)) := by
    cases c with
    | float k v =>
      cases k with
      | nGrayA64 => exact absurd rfl (hc v)
      | _ => rfl
    | _ => rfl
  have e8 : nGrayAModel c = (let v := c.rgba
    if v.a = 0 then .ok (.nGrayA 0 0)
    else if v.a = 0xffff then .ok (.nGrayA (shr (grayY v) 8).toUInt8 0xff)
    else do
      let y ← divU32 (grayY v * 0xffff) v.a
      .ok (.nGrayA (shr y 8).toUInt8 (shr v.a 8).toUInt8)) := by
    cases c with
    | float k v =>
      cases k with
      | nGrayA64 => exact absurd rfl (hc v)
      | _ => rfl
    | _ => rfl
  rw [e32, e8]
  clear e32 e8 hc
  revert hp
  generalize c.rgba = v
  intro hp
  have hY := grayY_toNat hp
  have hle := gray_le hp
  have hs := shade_le hp
  have ha := hp.1
  by_cases h0 : v.a = 0
  · have h0' : v.a.toNat = 0 := by rw [h0]; rfl
    simp only [h0, if_true]
    have : shadeOf v = 0 := by unfold shadeOf; rw [h0']; simp
    exact ⟨⟨0, 0, rfl, by rw [this]; rfl, rfl⟩, 0, 0, rfl, by rw [this]; rfl, rfl⟩
  · have hpos : 0 < v.a.toNat := by
      rcases Nat.eq_zero_or_pos v.a.toNat with h | h
      · exact absurd (UInt32.toNat_inj.1 h) h0
      · exact h
    simp only [if_neg h0]
    by_cases h1 : v.a = 0xffff
    · have h1' : v.a.toNat = 65535 := by rw [h1]; rfl
      have hst : shadeOf v = (lumaMilli v + 500) / 1000 := by unfold shadeOf; rw [h1']; omega
      simp only [h1, if_true]
      refine ⟨⟨_, _, rfl, ?_, rfl⟩, _, _, rfl, ?_, rfl⟩
      · rw [UInt32.toNat_toUInt16, hY, hst]; omega
      · rw [UInt32.toNat_toUInt8, shr8, hY, hst]; omega
    · simp only [if_neg h1]
      obtain ⟨d1, d2⟩ := div65535_ok (grayY v) v.a (by rw [hY]; omega) hpos
      rw [hY] at d2
      have d2 : _ = shadeOf v := d2
      rw [d1]
      refine ⟨⟨_, _, rfl, ?_, ?_⟩, _, _, rfl, ?_, ?_⟩
      · rw [UInt32.toNat_toUInt16, d2]; omega
      · rw [UInt32.toNat_toUInt16]; omega
      · rw [UInt32.toNat_toUInt8, shr8, d2]; omega
      · rw [UInt32.toNat_toUInt8, shr8]; omega

/-- **C73** To 16-bit grey with alpha: the alpha is kept; the shade shown is the luminance, rounded, and for translucent colours
at most one less. -/
theorem C73_nGrayA32 (conv : FloatKind → RGBA32 → RGBA32) (c : Col) (hp : Premultiplied c.rgba) (hc : ∀ v, c ≠ .float .nGrayA64 v) :
    ∃ x, ColorModel.convert conv .nGrayA32 c = .ok x ∧ x.rgba.a = c.rgba.a ∧ x.rgba.g = x.rgba.r ∧ x.rgba.b = x.rgba.r ∧
      lumaMilli c.rgba ≤ 1000 * x.rgba.r.toNat + 1500 ∧ 1000 * x.rgba.r.toNat ≤ lumaMilli c.rgba + 500 ∧
      (c.rgba.a = 65535 → lumaMilli c.rgba ≤ 1000 * x.rgba.r.toNat + 500) := by
  obtain ⟨⟨y, a, e, hy, ha⟩, -⟩ := grays c hp hc
  refine ⟨_, e, ?_⟩
  obtain ⟨he, -⟩ := C36_rgba (.nGrayA32 y a) _ rfl
  simp only [Prod.mk.injEq] at he
  obtain ⟨h1, h2, h3, h4⟩ := he
  refine ⟨UInt32.toNat_inj.1 (h4.trans ha), UInt32.toNat_inj.1 (h2.trans h1.symm), UInt32.toNat_inj.1 (h3.trans h1.symm), ?_⟩
  rw [h1, hy, ha]
  have hle := gray_le hp
  have hal := hp.1
  generalize hYe : (lumaMilli c.rgba + 500) / 1000 = Y at hle
  have hlo : Y ≤ scale16 (shadeOf c.rgba) c.rgba.a.toNat + 1 := by
    unfold scale16 shadeOf
    rw [hYe]
    generalize c.rgba.a.toNat = A at *
    have h := Nat.div_add_mod (Y * 65535) A
    rcases Nat.eq_zero_or_pos A with h0 | h0
    · omega
    · have hm := Nat.mod_lt (Y * 65535) h0
      rw [Nat.mul_comm A] at h
      omega
  have hhi : scale16 (shadeOf c.rgba) c.rgba.a.toNat ≤ Y := by
    unfold scale16 shadeOf
    rw [hYe]
    have := Nat.div_mul_le_self (Y * 65535) c.rgba.a.toNat
    omega
  refine ⟨by omega, by omega, fun h => ?_⟩
  have h : c.rgba.a.toNat = 65535 := by rw [h]; rfl
  have : scale16 (shadeOf c.rgba) c.rgba.a.toNat = Y := by
    unfold scale16 shadeOf
    rw [hYe, h]
    omega
  omega

/-- **C73** To 8-bit grey with alpha: alpha and shade shown differ from alpha and luminance by less than one in 256 for opaque colours, and the
shade by less than one in 127 for translucent ones. -/
theorem C73_nGrayA (conv : FloatKind → RGBA32 → RGBA32) (c : Col) (hp : Premultiplied c.rgba) (hc : ∀ v, c ≠ .float .nGrayA64 v) :
    ∃ x, ColorModel.convert conv .nGrayA c = .ok x ∧ x.rgba.g = x.rgba.r ∧ x.rgba.b = x.rgba.r ∧
      c.rgba.a.toNat ≤ x.rgba.a.toNat + 255 ∧ x.rgba.a.toNat ≤ c.rgba.a.toNat + 255 ∧
      lumaMilli c.rgba ≤ 1000 * x.rgba.r.toNat + 511500 ∧ 1000 * x.rgba.r.toNat ≤ lumaMilli c.rgba + 510500 ∧
      (c.rgba.a = 65535 → x.rgba.a = 65535 ∧ lumaMilli c.rgba ≤ 1000 * x.rgba.r.toNat + 255500 ∧ 1000 * x.rgba.r.toNat ≤ lumaMilli c.rgba + 255500) := by
  obtain ⟨-, y, a, e, hy, ha⟩ := grays c hp hc
  refine ⟨_, e, ?_⟩
  obtain ⟨he, -⟩ := C36_rgba (.nGrayA y a) _ rfl
  simp only [Prod.mk.injEq] at he
  obtain ⟨h1, h2, h3, h4⟩ := he
  refine ⟨UInt32.toNat_inj.1 (h2.trans h1.symm), UInt32.toNat_inj.1 (h3.trans h1.symm), ?_⟩
  have hle := gray_le hp
  have hal := hp.1
  have hs := shade_le hp
  have hop : c.rgba.a = 65535 → c.rgba.a.toNat = 65535 := fun h => by rw [h]; rfl
  have hop' : (Col.nGrayA y a).rgba.a.toNat = 65535 → (Col.nGrayA y a).rgba.a = 65535 := fun h => UInt32.toNat_inj.1 h
  rw [h4, ha] at hop'
  rw [h1, h4, hy, ha]
  generalize hYe : (lumaMilli c.rgba + 500) / 1000 = Y at hle
  have hst : shadeOf c.rgba * c.rgba.a.toNat ≤ Y * 65535 ∧ Y * 65535 ≤ shadeOf c.rgba * c.rgba.a.toNat + c.rgba.a.toNat := by
    unfold shadeOf
    rw [hYe]
    refine ⟨Nat.div_mul_le_self _ _, ?_⟩
    have h := Nat.div_add_mod (Y * 65535) c.rgba.a.toNat
    rcases Nat.eq_zero_or_pos c.rgba.a.toNat with h0 | h0
    · omega
    · have hm := Nat.mod_lt (Y * 65535) h0
      rw [Nat.mul_comm c.rgba.a.toNat] at h
      omega
  have hone : c.rgba.a.toNat = 65535 → shadeOf c.rgba = Y := fun h => by
    unfold shadeOf
    rw [hYe, h]
    omega
  generalize shadeOf c.rgba = S at *
  generalize c.rgba.a.toNat = A at *
  obtain ⟨S', hS'⟩ : ∃ x, S / 256 * 257 = x := ⟨_, rfl⟩
  obtain ⟨A', hA'⟩ : ∃ x, A / 256 * 257 = x := ⟨_, rfl⟩
  rw [hA'] at hop'
  rw [hS', hA']
  have b1 : S' ≤ S + 255 := by omega
  have b2 : S ≤ S' + 255 := by omega
  have b3 : A' ≤ A + 255 := by omega
  have b4 : A ≤ A' + 255 := by omega
  have b5 : S' ≤ 65535 := by omega
  have m1 : S' * A' ≤ S' * (A + 255) := Nat.mul_le_mul_left _ b3
  have m2 : S' * A ≤ (S + 255) * A := Nat.mul_le_mul_right _ b1
  have m3 : S' * A ≤ S' * (A' + 255) := Nat.mul_le_mul_left _ b4
  have m4 : S * A ≤ (S' + 255) * A := Nat.mul_le_mul_right _ b2
  rw [Nat.mul_add] at m1 m3
  rw [Nat.add_mul] at m2 m4
  unfold scale16
  refine ⟨b4, b3, by omega, by omega, fun h => ?_⟩
  have hA := hop h
  have := hone hA
  have hA'' : A' = 65535 := by omega
  refine ⟨hop' hA'', ?_⟩
  rw [hA'']
  omega

/-- A translucent orange: luminance 21,392. -/
example : Premultiplied (Col.foreign ⟨40000, 15000, 5500, 40000⟩).rgba ∧ lumaMilli ⟨40000, 15000, 5500, 40000⟩ = 21392000 ∧
    nGrayA32Model (.foreign ⟨40000, 15000, 5500, 40000⟩) = .ok (.nGrayA32 35048 40000) ∧ (Col.nGrayA32 35048 40000).rgba.r = 21391 ∧
    nGrayAModel (.foreign ⟨40000, 15000, 5500, 40000⟩) = .ok (.nGrayA 136 156) ∧ (Col.nGrayA 136 156).rgba.r = 21382 ∧
    gray1Model (.foreign ⟨40000, 15000, 5500, 40000⟩) = .ok (.gray1 false) := by
  refine ⟨by unfold Premultiplied; decide, by decide, by decide, by decide, by decide, by decide, by decide⟩

end Psd
