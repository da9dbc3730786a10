import Verif.Model.Gamma
import Verif.Spec.FloatColor
import Verif.Spec.Resample

/-
What is assumed of floating point arithmetic for the gamma tables.
-/

namespace Psd

/-- IEEE 754 rounding, and `math.Pow` with its documented special cases and an accuracy of 40 bits (it has about 52), for the arguments that occur with gammas from 1/8 to 8. -/
structure Powers.Faithful (P : Powers) : Prop where
  mono64 : ∀ x y, x ≤ y → P.round64 x ≤ P.round64 y
  /-- small integers are floats -/
  int64 : ∀ n : Nat, n ≤ 2 ^ 24 → P.round64 n = n
  /-- 53 bits, for numbers neither too small nor too large -/
  near64 : ∀ x, 1 / 2 ^ 200 ≤ x → x ≤ 2 ^ 200 → Within (1 / 2 ^ 53) x (P.round64 x)
  pow_near : ∀ x g, 1 / 2 ^ 20 ≤ x → x ≤ 1 → 0 < g → g ≤ 9 → Within (1 / 2 ^ 40) (x ^ g) (P.pow x g)
  /-- `Pow(0, y) = 0 for finite y > 0`, `Pow(1, y) = 1` -/
  pow_zero : ∀ g, 0 < g → P.pow 0 g = 0
  pow_one : ∀ g, P.pow 1 g = 1

/-- A move by whole pixels takes opaque pixels as they are (x/image/draw makes it a copy). -/
def Resampler.Shifts (R : Resampler) : Prop :=
  ∀ (u v : Int) (dst src : Rect) (pix : List UInt8) (x y : Int), src.Mem x y → dst.Mem (x + u) (y + v) →
    (bytesAt src 8 pix x y).drop 6 = [255, 255] → bytesAt dst 8 (R.nrgba64 ⟨1, 0, u, 0, 1, v⟩ dst src pix) (x + u) (y + v) = bytesAt src 8 pix x y

/-- One level darker, except for black and white. -/
def dimmed (v : UInt8) : UInt8 := if v = 0 ∨ v = 255 then v else v - 1

end Psd
