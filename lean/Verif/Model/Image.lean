import Verif.Model.Decode
import Verif.Model.Color

/-
Model of what the package offers through package image of the standard library: psd.go:286-313 and the `ColorModel` and `Bounds` methods
of picker.go.
-/

namespace Psd

/-- The value of a `ColorModel` method. -/
inductive PicModel where
  /-- `color.GrayModel`, `color.Gray16Model`, `color.NRGBAModel`, `color.NRGBA64Model` of the standard library -/
  | gray | gray16 | nrgba | nrgba64
  /-- one of the models of color/color.go -/
  | own (m : ColorModel)
  /-- a `color.Palette` -/
  | palette (entries : List (UInt8 × UInt8 × UInt8 × UInt8))
  deriving DecidableEq, Repr

/-- The `ColorModel` methods (picker.go:106, 119, 133, 148, 163, 176, 191, 206, 219, 234, 249, 267, 287, 302, 322, 342, 362, 382, 403, 424, 445).
`.gray sz` occurs with `sz` 1, 2, 4; `.planes n sz` with `n` 1 and 3 and `sz` 1, 2, 4, and with `n` 4 and `sz` 1, 2. -/
def Picker.colorModel (p : Picker) : PicModel :=
  match p.kind with
  | .palette => .palette p.palette
  | .gray1 => .own .gray1
  | .gray sz => if sz = 1 then .gray else if sz = 2 then .gray16 else .own .gray32
  | .planes n sz _ =>
    if n = 1 then .own (if sz = 1 then .nGrayA else if sz = 2 then .nGrayA32 else .nGrayA64)
    else if n = 3 then (if sz = 1 then .nrgba else if sz = 2 then .nrgba64 else .own .nRGBA128)
    else .own (if sz = 1 then .nCMYKA else .nCMYKA80)

/-- `image.Config` of the standard library. -/
structure ImageConfig where
  width : Int
  height : Int
  colorModel : PicModel
  deriving DecidableEq, Repr

/-- The two strings given to `image.RegisterFormat` (psd.go:310-313). -/
def imageMagics : List (List UInt8) := [headerSignature ++ [0, 1], headerSignature ++ [0, 2]]

/-- How package image chooses a decoder: the next bytes of the reader, which it peeks at without consuming them, are one of the strings. (In such a string
a question mark stands for any byte; ours have none.) Formats registered by other packages are not modelled. -/
def sniffs (s : St) : Bool := imageMagics.any fun m => decide (s.avail.take m.length = m)

/-- `image.Decode` with psd.go:286-292: the picture of the document. `errors.New("image: unknown format")` if no decoder is found. -/
def imageDecode (env : Env) (s : St) : Res Picker :=
  if sniffs s then
    match decode env { skipLayerImage := true } s with
    | .ok ((psd, _), _) =>
      match psd.picker with
      | some p => .ok p
      | none => .panic .nilDeref
    | .err e => .err e
    | .panic e => .panic e
    | .fuel => .fuel
  else .err (.bad "image: unknown format")

/-- `image.DecodeConfig` with psd.go:294-308. The picker has no source yet; its `ColorModel` does not need one. -/
def imageDecodeConfig (s : St) : Res ImageConfig :=
  if sniffs s then
    match decodeConfig s with
    | .ok ((cfg, _), _) => do
      let (k, pal) ← cfg.makePicker
      .ok ⟨cfg.rect.dx, cfg.rect.dy, Picker.colorModel { kind := k, rect := Rect.zero, src := [], palette := pal }⟩
    | .err e => .err e
    | .panic e => .panic e
    | .fuel => .fuel
  else .err (.bad "image: unknown format")

/-- The colour that `At` of a picker returns (the composite literals at picker.go:124, 152, 167, 195, 210, 386-392, 407-413, 428-434, 449-455): the values that `Picker.at`
gives, in the types of color/color.go with integer components. Not here: the types of the standard library; those with floating
point components are in Model/FloatColor.lean. A missing alpha plane is filled with 0xff or 0xffff. -/
def Picker.colour (p : Picker) (v : PixelVal) : Option Col :=
  match p.kind, v with
  | .gray1, .bit w => some (.gray1 w)
  | .planes 1 1 _, .samples [y] => some (.nGrayA (UInt8.ofNat y) 0xff)
  | .planes 1 1 _, .samples [y, a] => some (.nGrayA (UInt8.ofNat y) (UInt8.ofNat a))
  | .planes 1 2 _, .samples [y] => some (.nGrayA32 (UInt16.ofNat y) 0xffff)
  | .planes 1 2 _, .samples [y, a] => some (.nGrayA32 (UInt16.ofNat y) (UInt16.ofNat a))
  | .planes 4 1 _, .samples [c, m, y, k] => some (.nCMYKA (UInt8.ofNat c) (UInt8.ofNat m) (UInt8.ofNat y) (UInt8.ofNat k) 0xff)
  | .planes 4 1 _, .samples [c, m, y, k, a] => some (.nCMYKA (UInt8.ofNat c) (UInt8.ofNat m) (UInt8.ofNat y) (UInt8.ofNat k) (UInt8.ofNat a))
  | .planes 4 2 _, .samples [c, m, y, k] => some (.nCMYKA80 (UInt16.ofNat c) (UInt16.ofNat m) (UInt16.ofNat y) (UInt16.ofNat k) 0xffff)
  | .planes 4 2 _, .samples [c, m, y, k, a] =>
    some (.nCMYKA80 (UInt16.ofNat c) (UInt16.ofNat m) (UInt16.ofNat y) (UInt16.ofNat k) (UInt16.ofNat a))
  | _, _ => none

end Psd
