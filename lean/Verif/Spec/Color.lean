import Verif.Model.Color

/-
What the colour types mean, in unbounded integers on the 16-bit scale.
-/

namespace Psd

/-- A component multiplied by alpha, both on the scale 0..65535, rounded down. -/
def scale16 (x a : Nat) : Nat := x * a / 65535

/-- The premultiplied colour of the types with integer components. 8-bit components are widened by 257. In the CMYK
types the components are inverted (0 is full ink), so the channel is the product with K. -/
def Col.exact : Col → Option (Nat × Nat × Nat × Nat)
  | .gray1 y => let v := if y then 65535 else 0; some (v, v, v, 65535)
  | .nGrayA y a => let v := scale16 (y.toNat * 257) (a.toNat * 257); some (v, v, v, a.toNat * 257)
  | .nGrayA32 y a => let v := scale16 y.toNat a.toNat; some (v, v, v, a.toNat)
  | .nCMYKA c m y k a =>
    let f (x : UInt8) := scale16 (scale16 (x.toNat * 257) (k.toNat * 257)) (a.toNat * 257)
    some (f c, f m, f y, a.toNat * 257)
  | .nCMYKA80 c m y k a =>
    let f (x : UInt16) := scale16 (scale16 x.toNat k.toNat) a.toNat
    some (f c, f m, f y, a.toNat)
  | .float _ _ => none
  | .foreign _ => none

/-- The contract of image/color: components at most the alpha, the alpha at most 65535. -/
def Premultiplied (v : RGBA32) : Prop :=
  v.a.toNat ≤ 65535 ∧ v.r.toNat ≤ v.a.toNat ∧ v.g.toNat ≤ v.a.toNat ∧ v.b.toNat ≤ v.a.toNat

end Psd
