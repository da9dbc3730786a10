import Verif.Model.FloatColor

/-
What is assumed of floating point arithmetic, and what the colours with floating point components mean.
-/

namespace Psd

/-- `y` is `x` up to the part `e`. -/
def Within (e x y : ℝ) : Prop := x * (1 - e) ≤ y ∧ y ≤ x * (1 + e)

/-- What is assumed of the platform: IEEE 754 rounding, and `math.Pow` with its documented special cases and an accuracy of 40 bits (it has about 52). -/
structure Floats.Faithful (F : Floats) : Prop where
  mono32 : ∀ x y, x ≤ y → F.round32 x ≤ F.round32 y
  mono64 : ∀ x y, x ≤ y → F.round64 x ≤ F.round64 y
  /-- small integers are floats -/
  int32 : ∀ n : Nat, n ≤ 2 ^ 24 → F.round32 n = n
  int64 : ∀ n : Nat, n ≤ 2 ^ 24 → F.round64 n = n
  /-- 24 and 53 bits, for numbers neither too small nor too large -/
  near32 : ∀ x, 1 / 2 ^ 100 ≤ x → x ≤ 2 ^ 100 → Within (1 / 2 ^ 24) x (F.round32 x)
  near64 : ∀ x, 1 / 2 ^ 100 ≤ x → x ≤ 2 ^ 100 → Within (1 / 2 ^ 53) x (F.round64 x)
  /-- `Pow(x, 1/2.2)` -/
  root_near : ∀ x, 0 ≤ x → ∃ y, F.root (.fin x) = .fin y ∧ Within (1 / 2 ^ 40) (x ^ (5 / 11 : ℝ)) y
  root_ge_one : ∀ x, 1 ≤ x → ∃ y, F.root (.fin x) = .fin y ∧ 1 ≤ y
  /-- `Pow(x, y) = NaN for finite x < 0 and finite non-integer y` -/
  root_neg : ∀ x, x < 0 → F.root (.fin x) = .nan
  root_nan : F.root .nan = .nan
  root_posInf : F.root .posInf = .posInf
  /-- `Pow(-Inf, y) = +Inf for finite y > 0 and not an odd integer` -/
  root_negInf : F.root .negInf = .posInf
  /-- `Pow(x, 2.2)` -/
  power_near : ∀ x, 0 ≤ x → x ≤ 1 → ∃ y, F.power (.fin x) = .fin y ∧ Within (1 / 2 ^ 40) (x ^ (11 / 5 : ℝ)) y
  /-- `Pow(1, y) = 1` -/
  power_one : F.power (.fin 1) = .fin 1

/-- The components other than alpha. -/
def FCol.parts : FCol → List Fl
  | .gray32 y => [y]
  | .nGrayA64 y _ => [y]
  | .nRGBA128 r g b _ => [r, g, b]

/-- The alpha. -/
def FCol.alpha : FCol → Fl
  | .gray32 _ => .fin 1
  | .nGrayA64 _ a => a
  | .nRGBA128 _ _ _ a => a

/-- Zero, positive or infinite: an amount of light. -/
def Fl.Light : Fl → Prop
  | .posInf => True
  | .fin x => 0 ≤ x
  | _ => False

/-- The level, between 0 and 65535, at which an amount of light is shown: more than 1 is clipped, what is less is corrected by the gamma of 2.2. -/
noncomputable def Fl.level : Fl → ℝ
  | .posInf => 65535
  | .fin x => 65535 * (min x 1) ^ (5 / 11 : ℝ)
  | _ => 0

/-- The opacity, between 0 and 1. -/
noncomputable def Fl.opacity : Fl → ℝ
  | .posInf => 1
  | .fin x => max 0 (min x 1)
  | _ => 0

/-- The red, green and blue levels of a colour without alpha. -/
noncomputable def FCol.levels : FCol → ℝ × ℝ × ℝ
  | .gray32 y => (y.level, y.level, y.level)
  | .nGrayA64 y _ => (y.level, y.level, y.level)
  | .nRGBA128 r g b _ => (r.level, g.level, b.level)

end Psd
