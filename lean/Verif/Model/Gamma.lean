import Verif.Model.Resample
import Mathlib.Analysis.SpecialFunctions.Pow.Real

/-
Model of `makeGammaTable` (composite/layerimage.go:84-96), with real numbers. Rounding and `math.Pow` are parameters.
-/

namespace Psd

/-- What the code takes from the platform. -/
structure Powers where
  /-- `math.Pow`, for finite arguments not less than 0 -/
  pow : ℝ → ℝ → ℝ
  /-- the float64 nearest to a number -/
  round64 : ℝ → ℝ

/-- layerimage.go:84-96, for a gamma above 0: then what is converted to an integer is in range. (Otherwise the conversion depends on the platform.) -/
noncomputable def makeGammaTable (P : Powers) (g : ℝ) : GammaTable where
  t8 v := UInt16.ofNat ⌊P.round64 (P.pow (P.round64 (v.toNat / 255)) g * 65535)⌋₊
  t16 v := UInt8.ofNat ⌊P.round64 (P.pow (P.round64 (v.toNat / 65535)) (P.round64 (1 / g)) * 255)⌋₊

end Psd
