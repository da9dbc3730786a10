import Verif.Model.Blend16
import Mathlib.Data.Int.Log
import Mathlib.Data.Rat.Floor

/-
Model of the luminosity arithmetic on the 16-bit scale (blend/util.go:100-154, 194-202), in floating point: rational numbers, rounded to
53 bits after each operation.
-/

namespace Psd

/-- The integer nearest to `x`, of two the even one. -/
def roundEven (x : ℚ) : Int :=
  if x - ⌊x⌋ < 1 / 2 then ⌊x⌋
  else if 1 / 2 < x - ⌊x⌋ then ⌊x⌋ + 1
  else if ⌊x⌋ % 2 = 0 then ⌊x⌋ else ⌊x⌋ + 1

/-- The float64 nearest to `x` (IEEE 754, round to nearest, ties to even). The exponent is not bounded: the numbers that occur below
are 0 or between 2 ^ -64 and 2 ^ 64. There are no infinities and no NaNs, as nothing is divided by 0. (Where Go may fuse
a product and a sum into one operation, as it does on some platforms but not on amd64, only one rounding is done; this is not modelled.) -/
def f64 (x : ℚ) : ℚ :=
  if x = 0 then 0 else roundEven (x / 2 ^ (Int.log 2 |x| - 52)) * 2 ^ (Int.log 2 |x| - 52)

/-- util.go:104-106 `lum16f`. `lum16` (util.go:100-102) is the same for integers, which the conversion to float64 leaves as they are. -/
def lum16f (r g b : ℚ) : ℚ := f64 (f64 (f64 (f64 (r * 19661) + f64 (g * 38666)) + f64 (b * 7209)) / 0x10000)

/-- util.go:194-202 `clamp16f`. -/
def clamp16f (a : ℚ) : UInt32 :=
  if a < 0 then 0 else if a > 0xffff then 0xffff else UInt32.ofNat ⌊a⌋.toNat

/-- util.go:142-145, 149-151: `lm + (c-lm)*f/t`. -/
def pull16 (lm f t c : ℚ) : ℚ := f64 (lm + f64 (f64 (f64 (c - lm) * f) / t))

/-- util.go:137-154 `clipColor16`, with `minf` (util.go:53-58) and `maxf` (util.go:32-37). -/
def clipColor16 (c : RGB ℚ) : RGB UInt32 :=
  let lm := lum16f c.r c.g c.b
  let mn := min c.r (min c.g c.b)
  let mx := max c.r (max c.g c.b)
  let c := if mn < 0 then
      let tmp := f64 (lm - mn)
      ⟨pull16 lm lm tmp c.r, pull16 lm lm tmp c.g, pull16 lm lm tmp c.b⟩
    else c
  let c := if mx > 0xffff then
      let tmp := f64 (0xffff - lm)
      let tmp2 := f64 (mx - lm)
      ⟨pull16 lm tmp tmp2 c.r, pull16 lm tmp tmp2 c.g, pull16 lm tmp tmp2 c.b⟩
    else c
  ⟨clamp16f c.r, clamp16f c.g, clamp16f c.b⟩

/-- util.go:113-116 `setLum16`, called with the luminosity `lum16` of `l` (genblend.go:380-404). -/
def setLum16 (c l : RGB UInt32) : RGB UInt32 :=
  let lm := f64 (lum16f l.r.toNat l.g.toNat l.b.toNat - lum16f c.r.toNat c.g.toNat c.b.toNat)
  clipColor16 ⟨f64 (c.r.toNat + lm), f64 (c.g.toNat + lm), f64 (c.b.toNat + lm)⟩

theorem clamp16f_le (a : ℚ) : (clamp16f a).toNat ≤ 65535 := by
  unfold clamp16f
  split
  · decide
  · split
    · decide
    · rename_i h
      have h1 : ⌊a⌋ ≤ 65535 := Int.floor_le_iff.mpr (lt_of_le_of_lt (not_lt.mp h) (by norm_num))
      rw [UInt32.toNat_ofNat']
      omega

/-- The code, for the parameter of the 16-bit kernels. -/
def float64Lum : FloatLum where
  setLum := setLum16
  le _ _ := ⟨clamp16f_le _, clamp16f_le _, clamp16f_le _⟩

end Psd
