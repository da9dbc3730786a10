import Verif.Model.Blend

/-
Model of color/color.go: the colour types with integer components, their `RGBA` methods and the colour models.

Colours of other packages enter only through the four numbers their `RGBA` method returns. The types with floating point
components (Gray32, NGrayA64, NRGBA128) are kept as a kind plus those four numbers: converting to them goes through
`math.Pow`, so the conversion is a parameter here. Model/FloatColor.lean models these types and the conversion.
-/

namespace Psd

/-- The result of `RGBA()`: alpha-premultiplied red, green, blue and alpha. -/
structure RGBA32 where
  r : UInt32
  g : UInt32
  b : UInt32
  a : UInt32
  deriving DecidableEq, Repr

/-- color.go:47-49, 138-141, 174-176: the types with `float32` components. -/
inductive FloatKind where
  | gray32 | nGrayA64 | nRGBA128
  deriving DecidableEq, Repr

/-- The colour values. -/
inductive Col where
  /-- color.go:25-27 -/
  | gray1 (y : Bool)
  /-- color.go:68-71 -/
  | nGrayA (y a : UInt8)
  /-- color.go:103-106 -/
  | nGrayA32 (y a : UInt16)
  /-- color.go:224-226 -/
  | nCMYKA (c m y k a : UInt8)
  /-- color.go:261-263 -/
  | nCMYKA80 (c m y k a : UInt16)
  /-- A colour with floating point components, known by what its `RGBA` method returns. -/
  | float (k : FloatKind) (v : RGBA32)
  /-- A colour of another package. -/
  | foreign (v : RGBA32)
  deriving DecidableEq, Repr

/-- The common tail of the `RGBA` methods (color.go:75-84, 110-119, 234-245, 271-282): `r`, `g`, `b` are the 16-bit
components, `a` the 16-bit alpha. -/
def premul (r g b a : UInt32) : RGBA32 :=
  if a = 0xffff then ⟨r, g, b, 0xffff⟩
  else if a = 0 then ⟨0, 0, 0, 0⟩
  else ⟨r * a / 0xffff, g * a / 0xffff, b * a / 0xffff, a⟩

/-- The `RGBA` methods. The 8-bit types compare their alpha with 0xff before widening it by 0x101; `0xff * 0x101` is
`0xffff`, so `premul` takes the widened alpha. -/
def Col.rgba : Col → RGBA32
  -- color.go:30-35
  | .gray1 y => if y then ⟨0xffff, 0xffff, 0xffff, 0xffff⟩ else ⟨0, 0, 0, 0xffff⟩
  -- color.go:74-85
  | .nGrayA y a => let v := y.toUInt32 * 0x101; premul v v v (a.toUInt32 * 0x101)
  -- color.go:109-120
  | .nGrayA32 y a => let v := y.toUInt32; premul v v v a.toUInt32
  -- color.go:229-246
  | .nCMYKA c m y k a =>
    let w := k.toUInt32 * 0x10201
    premul (c.toUInt32 * w / 0xffff) (m.toUInt32 * w / 0xffff) (y.toUInt32 * w / 0xffff) (a.toUInt32 * 0x101)
  -- color.go:266-283
  | .nCMYKA80 c m y k a =>
    let w := k.toUInt32
    premul (c.toUInt32 * w / 0xffff) (m.toUInt32 * w / 0xffff) (y.toUInt32 * w / 0xffff) a.toUInt32
  -- color.go:52-56, 144-155, 179-195 (see Model/FloatColor.lean)
  | .float _ v => v
  | .foreign v => v

/-- The luminance used by the grey models (color.go:42, 63, 95, 130, 165). -/
def grayY (v : RGBA32) : UInt32 := (299 * v.r + 587 * v.g + 114 * v.b + 500) / 1000

/-- color.go:37-43 -/
def gray1Model (c : Col) : Res Col :=
  match c with
  | .gray1 y => .ok (.gray1 y)
  | c => .ok (.gray1 (grayY c.rgba ≥ 0x8000))

/-- color.go:87-101 (the type tested is NGrayA64, not NGrayA) -/
def nGrayAModel (c : Col) : Res Col :=
  match c with
  | .float .nGrayA64 v => .ok (.float .nGrayA64 v)
  | c =>
    let v := c.rgba
    if v.a = 0 then .ok (.nGrayA 0 0)
    else if v.a = 0xffff then .ok (.nGrayA (shr (grayY v) 8).toUInt8 0xff)
    else do
      let y ← divU32 (grayY v * 0xffff) v.a
      .ok (.nGrayA (shr y 8).toUInt8 (shr v.a 8).toUInt8)

/-- color.go:122-136 (the type tested is NGrayA64, not NGrayA32) -/
def nGrayA32Model (c : Col) : Res Col :=
  match c with
  | .float .nGrayA64 v => .ok (.float .nGrayA64 v)
  | c =>
    let v := c.rgba
    if v.a = 0 then .ok (.nGrayA32 0 0)
    else if v.a = 0xffff then .ok (.nGrayA32 (grayY v).toUInt16 0xffff)
    else do
      let y ← divU32 (grayY v * 0xffff) v.a
      .ok (.nGrayA32 y.toUInt16 v.a.toUInt16)

/-- `color.RGBToCMYK` of the standard library (image/color/ycbcr.go), used at color.go:253. -/
def rgbToCMYK (r g b : UInt8) : Res (UInt8 × UInt8 × UInt8 × UInt8) :=
  let rr := r.toUInt32
  let gg := g.toUInt32
  let bb := b.toUInt32
  let w := if rr < gg then gg else rr
  let w := if w < bb then bb else w
  if w = 0 then .ok (0, 0, 0, 0xff)
  else do
    let c ← divU32 ((w - rr) * 0xff) w
    let m ← divU32 ((w - gg) * 0xff) w
    let y ← divU32 ((w - bb) * 0xff) w
    .ok (c.toUInt8, m.toUInt8, y.toUInt8, (0xff - w).toUInt8)

/-- color.go:248-259 (the alpha is not tested for 0) -/
def nCMYKAModel (c : Col) : Res Col :=
  match c with
  | .nCMYKA c m y k a => .ok (.nCMYKA c m y k a)
  | c => do
    let v := c.rgba
    let (cc, mm, yy, kk) ← rgbToCMYK (shr v.r 8).toUInt8 (shr v.g 8).toUInt8 (shr v.b 8).toUInt8
    let cc ← divU32 (cc.toUInt32 * 0xffff) v.a
    let mm ← divU32 (mm.toUInt32 * 0xffff) v.a
    let yy ← divU32 (yy.toUInt32 * 0xffff) v.a
    let kk ← divU32 (kk.toUInt32 * 0xffff) v.a
    .ok (.nCMYKA (255 - cc.toUInt8) (255 - mm.toUInt8) (255 - yy.toUInt8) (255 - kk.toUInt8) (shr v.a 8).toUInt8)

/-- color.go:293-299: the largest component -/
def rgbaMax (v : RGBA32) : UInt32 :=
  let w := if v.r < v.g then v.g else v.r
  if w < v.b then v.b else w

/-- color.go:285-316 (the type tested is NCMYKA, not NCMYKA80) -/
def nCMYKA80Model (c : Col) : Res Col :=
  match c with
  | .nCMYKA c m y k a => .ok (.nCMYKA c m y k a)
  | c =>
    let v := c.rgba
    if v.a = 0 then .ok (.nCMYKA80 0xffff 0xffff 0xffff 0xffff 0)
    else
      let w := rgbaMax v
      if w = 0 then .ok (.nCMYKA80 0xffff 0xffff 0xffff 0xffff v.a.toUInt16)
      else do
        let cc ← divU32 ((w - v.r) * 0xffff) w
        let mm ← divU32 ((w - v.g) * 0xffff) w
        let yy ← divU32 ((w - v.b) * 0xffff) w
        let kk := 0xffff - w
        if v.a = 0xffff then
          .ok (.nCMYKA80 (0xffff - cc).toUInt16 (0xffff - mm).toUInt16 (0xffff - yy).toUInt16 (0xffff - kk).toUInt16 0xffff)
        else do
          let cc ← divU32 (cc * 0xffff) v.a
          let mm ← divU32 (mm * 0xffff) v.a
          let yy ← divU32 (yy * 0xffff) v.a
          let kk ← divU32 (kk * 0xffff) v.a
          .ok (.nCMYKA80 (0xffff - cc).toUInt16 (0xffff - mm).toUInt16 (0xffff - yy).toUInt16 (0xffff - kk).toUInt16 v.a.toUInt16)

/-- color.go:58-66, 157-172, 197-218: the models with floating point results. `conv` is the conversion
through `math.Pow` (`Floats.conv` of Model/FloatColor.lean). -/
def floatModel (conv : FloatKind → RGBA32 → RGBA32) (k : FloatKind) (c : Col) : Res Col :=
  match c with
  | .float k' v => if k' = k then .ok (.float k' v) else .ok (.float k (conv k v))
  | c => .ok (.float k (conv k c.rgba))

/-- color.go:319-328: the exported colour models. -/
inductive ColorModel where
  | gray1 | nGrayA | gray32 | nGrayA32 | nGrayA64 | nRGBA128 | nCMYKA | nCMYKA80
  deriving DecidableEq, Repr

/-- `Model.Convert` -/
def ColorModel.convert (conv : FloatKind → RGBA32 → RGBA32) : ColorModel → Col → Res Col
  | .gray1 => gray1Model
  | .nGrayA => nGrayAModel
  | .gray32 => floatModel conv .gray32
  | .nGrayA32 => nGrayA32Model
  | .nGrayA64 => floatModel conv .nGrayA64
  | .nRGBA128 => floatModel conv .nRGBA128
  | .nCMYKA => nCMYKAModel
  | .nCMYKA80 => nCMYKA80Model

end Psd
