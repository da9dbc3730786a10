import Verif.Model.Color
import Verif.Model.Picker
import Mathlib.Analysis.SpecialFunctions.Pow.Real

/-
Model of the types of color/color.go with floating point components (Gray32, NGrayA64, NRGBA128): their `RGBA` methods, the conversion to them, and
how the pickers for 32-bit samples make them.

A floating point value is a real number, an infinity or NaN (0 and -0 are one value). `math.Pow`, rounding, and what the processor makes of a
number that does not fit into an unsigned integer are given by a `Floats`. Overflow of a rounding is not modelled: all results here are far from it.
-/

namespace Psd

/-- A value of type float32 or float64. -/
inductive Fl where
  | nan | posInf | negInf
  | fin (x : ℝ)

/-- What the code takes from the platform. -/
structure Floats where
  /-- `math.Pow(v, 1.0/2.2)` -/
  root : Fl → Fl
  /-- `math.Pow(v, 2.2)` -/
  power : Fl → Fl
  /-- the float32 nearest to a number -/
  round32 : ℝ → ℝ
  /-- the float64 nearest to a number -/
  round64 : ℝ → ℝ
  /-- `uint32(x)` for an `x` that is not a number between 0 and the largest uint32: "the result value is implementation-dependent" (Go specification) -/
  other : Fl → UInt32

/-- `x >= 1` -/
def Fl.GeOne : Fl → Prop
  | .nan => False
  | .posInf => True
  | .negInf => False
  | .fin x => 1 ≤ x

/-- `x <= 0` -/
def Fl.LeZero : Fl → Prop
  | .nan => False
  | .posInf => False
  | .negInf => True
  | .fin x => x ≤ 0

/-- `x * 0xffff`, rounded by `rnd`. -/
def Fl.scaled (rnd : ℝ → ℝ) : Fl → Fl
  | .fin x => .fin (rnd (x * 65535))
  | v => v

open Classical in
/-- `uint32(x)`: what follows the point is dropped. -/
noncomputable def Floats.toU32 (F : Floats) : Fl → UInt32
  | .fin x => if -1 < x ∧ x < 2 ^ 32 then UInt32.ofNat ⌊x⌋₊ else F.other (.fin x)
  | v => F.other v

open Classical in
/-- color.go:8-18. The exponent is 1/2.2 in all calls. -/
noncomputable def Floats.fromFloat (F : Floats) (v : Fl) : UInt32 :=
  let x := F.root v
  if x.GeOne then 0xffff
  else if x.LeZero then 0
  else F.toU32 (x.scaled F.round64)

/-- color.go:20-22. The exponent is 2.2 in all calls. -/
noncomputable def Floats.toFloat (F : Floats) (v : UInt32) : Fl := F.power (.fin (F.round64 (v.toNat / 65535)))

/-- A function of a finite value; the other values stay as they are (as they do under rounding, and under multiplication with and division by a positive number). -/
def Fl.onFin (f : ℝ → ℝ) : Fl → Fl
  | .fin x => .fin (f x)
  | v => v

/-- The colours with floating point components. -/
inductive FCol where
  /-- color.go:47-49 -/
  | gray32 (y : Fl)
  /-- color.go:138-141 -/
  | nGrayA64 (y a : Fl)
  /-- color.go:174-176 -/
  | nRGBA128 (r g b a : Fl)

open Classical in
/-- The common tail of color.go:144-155 and 179-195: `r`, `g`, `b` are what `fromFloat` returned. -/
noncomputable def Floats.premulF (F : Floats) (r g b : UInt32) (alpha : Fl) : RGBA32 :=
  if alpha.GeOne then ⟨r, g, b, 0xffff⟩
  else if alpha.LeZero then ⟨0, 0, 0, 0⟩
  else
    let a := F.toU32 (alpha.scaled F.round32)
    ⟨r * a / 0xffff, g * a / 0xffff, b * a / 0xffff, a⟩

/-- The `RGBA` methods. -/
noncomputable def FCol.rgba (F : Floats) : FCol → RGBA32
  -- color.go:52-56
  | .gray32 y => let v := F.fromFloat y; ⟨v, v, v, 0xffff⟩
  -- color.go:144-155
  | .nGrayA64 y a => let v := F.fromFloat y; F.premulF v v v a
  -- color.go:179-195
  | .nRGBA128 r g b a => F.premulF (F.fromFloat r) (F.fromFloat g) (F.fromFloat b) a

/-- The conversions from what `RGBA` returned of a colour of another type. -/
noncomputable def FCol.ofRGBA (F : Floats) (k : FloatKind) (v : RGBA32) : FCol :=
  match k with
  -- color.go:62-65
  | .gray32 => .gray32 ((F.toFloat (grayY v)).onFin F.round32)
  -- color.go:161-171
  | .nGrayA64 =>
    if v.a = 0 then .nGrayA64 (.fin 0) (.fin 0)
    else
      let x := (F.toFloat (grayY v)).onFin F.round32
      if v.a = 0xffff then .nGrayA64 x (.fin 1)
      else
        let xa := F.round32 (v.a.toNat / 65535)
        .nGrayA64 (x.onFin fun x => F.round32 (x / xa)) (.fin xa)
  -- color.go:201-217
  | .nRGBA128 =>
    let fr := (F.toFloat v.r).onFin F.round32
    let fg := (F.toFloat v.g).onFin F.round32
    let fb := (F.toFloat v.b).onFin F.round32
    if v.a ≥ 0xffff then .nRGBA128 fr fg fb (.fin 1)
    else if v.a = 0 then .nRGBA128 (.fin 0) (.fin 0) (.fin 0) (.fin 0)
    else
      let fa := F.round32 (65535 / v.a.toNat)
      .nRGBA128 (fr.onFin fun x => F.round32 (x * fa)) (fg.onFin fun x => F.round32 (x * fa)) (fb.onFin fun x => F.round32 (x * fa))
        (.fin (F.round32 (v.a.toNat / 65535)))

/-- The type of a colour. -/
def FCol.kind : FCol → FloatKind
  | .gray32 _ => .gray32
  | .nGrayA64 _ _ => .nGrayA64
  | .nRGBA128 _ _ _ _ => .nRGBA128

/-- The models with floating point results on such colours (color.go:58-66, 157-172, 197-218): a colour of the right type is returned as it is. -/
noncomputable def FCol.convert (F : Floats) (k : FloatKind) (c : FCol) : FCol := if c.kind = k then c else .ofRGBA F k (c.rgba F)

/-- The conversion that Model/Color.lean takes as a parameter: what `RGBA` of the converted colour returns. -/
noncomputable def Floats.conv (F : Floats) (k : FloatKind) (v : RGBA32) : RGBA32 := (FCol.ofRGBA F k v).rgba F

/-- `math.Float32frombits` (util.go:70-72): the float32 with the given bit pattern, IEEE 754. -/
noncomputable def Fl.ofBits (n : Nat) : Fl :=
  let sign : ℝ := if n / 2 ^ 31 % 2 = 0 then 1 else -1
  let e : Nat := n / 2 ^ 23 % 256
  let m : Nat := n % 2 ^ 23
  if e = 255 then
    if m ≠ 0 then .nan else if n / 2 ^ 31 % 2 = 0 then .posInf else .negInf
  else if e = 0 then .fin (sign * m / 2 ^ 149)
  else .fin (sign * (2 ^ 23 + m) * 2 ^ e / 2 ^ 150)

/-- The colour that `At` of a picker for 32-bit samples returns (picker.go:221-224, 236-239, 251-257, 344-352, 364-372), from the bit patterns that `Picker.at` gives. A missing alpha
plane is filled with 1. -/
noncomputable def Picker.floatColour (p : Picker) (v : PixelVal) : Option FCol :=
  match p.kind, v with
  | .gray 4, .samples [y] => some (.gray32 (.ofBits y))
  | .planes 1 4 _, .samples [y] => some (.nGrayA64 (.ofBits y) (.fin 1))
  | .planes 1 4 _, .samples [y, a] => some (.nGrayA64 (.ofBits y) (.ofBits a))
  | .planes 3 4 _, .samples [r, g, b] => some (.nRGBA128 (.ofBits r) (.ofBits g) (.ofBits b) (.fin 1))
  | .planes 3 4 _, .samples [r, g, b, a] => some (.nRGBA128 (.ofBits r) (.ofBits g) (.ofBits b) (.ofBits a))
  | _, _ => none

end Psd
