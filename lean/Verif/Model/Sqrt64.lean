import Verif.Model.Blend
import Mathlib.Data.Int.Log
import Mathlib.Analysis.Real.Sqrt

/-
Model of `sqrt` (blend/util.go:14-16) in floating point: real numbers, rounded to 53 bits after each operation.
-/

namespace Psd

open Classical in
/-- The integer nearest to `x`, of two the even one. -/
noncomputable def roundEvenReal (x : ℝ) : Int :=
  if x - ⌊x⌋ < 1 / 2 then ⌊x⌋
  else if 1 / 2 < x - ⌊x⌋ then ⌊x⌋ + 1
  else if ⌊x⌋ % 2 = 0 then ⌊x⌋ else ⌊x⌋ + 1

open Classical in
/-- The float64 nearest to `x`, as `f64` of Model/Float64.lean, for real numbers. -/
noncomputable def f64Real (x : ℝ) : ℝ :=
  if x = 0 then 0 else roundEvenReal (x / 2 ^ (Int.log 2 |x| - 52)) * 2 ^ (Int.log 2 |x| - 52)

/-- util.go:14-16 `sqrt`: `uint32(math.Sqrt(float64(a)/b) * b)`. `math.Sqrt` is rounded correctly (IEEE 754). -/
noncomputable def sqrt64 (a b : UInt32) : UInt32 := UInt32.ofNat ⌊f64Real (f64Real √(f64Real (a.toNat / b.toNat)) * b.toNat)⌋₊

end Psd
