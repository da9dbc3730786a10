import Verif.Model.Util

/-
Model of /repo/colormode.go and /repo/picker.go: which picker is chosen for a picture and how a
picker reads a pixel.
-/

namespace Psd

/-- colormode.go:4-18 `ColorMode` (an int16). -/
abbrev ColorMode := Int

def cmBitmap : ColorMode := 0
def cmGrayscale : ColorMode := 1
def cmIndexed : ColorMode := 2
def cmRGB : ColorMode := 3
def cmCMYK : ColorMode := 4

/-- colormode.go:22-34 `Channels`. -/
def ColorMode.channels (c : ColorMode) : Int :=
  if c = cmBitmap ∨ c = cmGrayscale ∨ c = cmIndexed then 1
  else if c = cmRGB then 3
  else if c = cmCMYK then 4
  else -1

/-- The picker types of picker.go.  `planes n sz alpha`: `n` colour planes of `sz`-byte samples,
followed by an alpha plane if `alpha`; `gray` distinguishes the channel pickers
(pickerGray8/16/32), which build other colour types, from pickerNGray8/16/32. -/
inductive PickerKind where
  | palette                                   -- pickerPalette
  | gray1                                     -- pickerGray1
  | gray (sz : Nat)                           -- pickerGray8, pickerGray16, pickerGray32
  | planes (n sz : Nat) (alpha : Bool)        -- the others
  deriving DecidableEq, Repr

/-- picker.go:27-39 `findGrayPicker`. -/
def findGrayPicker (depth : Nat) : Option PickerKind :=
  if depth = 1 then some .gray1
  else if depth = 8 then some (.gray 1)
  else if depth = 16 then some (.gray 2)
  else if depth = 32 then some (.gray 4)
  else none

/-- picker.go:41-60 `findNGrayPicker`. -/
def findNGrayPicker (depth : Nat) (hasAlpha : Bool) : Option PickerKind :=
  if depth = 8 then some (.planes 1 1 hasAlpha)
  else if depth = 16 then some (.planes 1 2 hasAlpha)
  else if depth = 32 then some (.planes 1 4 hasAlpha)
  else none

/-- picker.go:62-81 `findNRGBAPicker`. -/
def findNRGBAPicker (depth : Nat) (hasAlpha : Bool) : Option PickerKind :=
  if depth = 8 then some (.planes 3 1 hasAlpha)
  else if depth = 16 then some (.planes 3 2 hasAlpha)
  else if depth = 32 then some (.planes 3 4 hasAlpha)
  else none

/-- picker.go:83-97 `findNCMYKAPicker`. -/
def findNCMYKAPicker (depth : Nat) (hasAlpha : Bool) : Option PickerKind :=
  if depth = 8 then some (.planes 4 1 hasAlpha)
  else if depth = 16 then some (.planes 4 2 hasAlpha)
  else none

/-- picker.go:15-25 `findPicker`. -/
def findPicker (depth : Nat) (mode : ColorMode) (hasAlpha : Bool) : Option PickerKind :=
  if mode = cmBitmap ∨ mode = cmGrayscale then findNGrayPicker depth hasAlpha
  else if mode = cmRGB then findNRGBAPicker depth hasAlpha
  else if mode = cmCMYK then findNCMYKAPicker depth hasAlpha
  else none

/-- A picker after `setSource`: its kind, rectangle, planes, and (for pickerPalette) the palette
as (r, g, b, a) entries. -/
structure Picker where
  kind : PickerKind
  rect : Rect
  src : List (List UInt8)
  palette : List (UInt8 × UInt8 × UInt8 × UInt8) := []
  deriving DecidableEq, Repr

/-- How many planes `setSource` of this picker kind reads from its argument list. -/
def PickerKind.arity : PickerKind → Nat
  | .palette => 1
  | .gray1 => 1
  | .gray _ => 1
  | .planes n _ alpha => if alpha then n + 1 else n

/-- The `setSource` methods (picker.go:105, 118, 132, 145, 160, 175, 188-190, 203-205, 218, 231-233, 246-248, 264-266,
284-286, 299-301, 319-321, 339-341, 359-361, 379-381, 400-402, 421-423, 442-444) and the `Bounds` methods (picker.go:107, 120, 134,
149, 164, 177, 192, 207, 220, 235, 250, 268, 288, 303, 323, 343, 363, 383, 404, 425, 446), which return `rect`: index panics if too few
planes are passed; extra planes are ignored. -/
def PickerKind.setSource (k : PickerKind) (rect : Rect) (src : List (List UInt8)) : Res Picker :=
  if k.arity ≤ src.length then .ok { kind := k, rect := rect, src := src.take k.arity }
  else .panic .index

/-- Index into a slice with a possibly negative Go int. -/
def goIndexI {α : Type} (s : List α) (i : Int) : Res α :=
  if 0 ≤ i then goIndex s i.toNat else .panic .index

/-- `pos` of the non-bitmap pickers, in samples (picker.go:109, 136, 151, 166, 179, …). -/
def pickPos (rect : Rect) (x y : Int) : Int :=
  (y - rect.minY) * rect.dx + x - rect.minX

/-- One `sz`-byte big-endian sample of a plane at sample position `pos`: `p.Y[pos]` for one byte,
`readUint16(p.Y, pos<<1)`, `readFloat32(p.Y, pos<<2)` (the IEEE bit pattern) otherwise. -/
def pickSample (sz : Nat) (plane : List UInt8) (pos : Int) : Res Nat :=
  let off := pos * sz
  if 0 ≤ off ∧ off.toNat + sz ≤ plane.length then
    .ok (beNat ((plane.drop off.toNat).take sz))
  else .panic .index

/-- What `At` returns: a 1-bit gray value, a palette entry, or the list of sample bit patterns in
plane order (colour planes, then alpha if the picker has one). -/
inductive PixelVal where
  | bit (white : Bool)
  | entry (c : UInt8 × UInt8 × UInt8 × UInt8)
  | samples (v : List Nat)
  deriving DecidableEq, Repr

def pickSamples (sz : Nat) (pos : Int) : List (List UInt8) → Res (List Nat)
  | [] => .ok []
  | pl :: pls => do
    let v ← pickSample sz pl pos
    let vs ← pickSamples sz pos pls
    .ok (v :: vs)

/-- The `At` methods of picker.go. The Go values 0xff / 0xffff / 1.0 that fill a missing alpha
plane are not part of the sample list. -/
def Picker.at (p : Picker) (x y : Int) : Res PixelVal :=
  match p.kind with
  | .palette => do                                   -- picker.go:108-111
    let plane ← goIndex p.src 0
    let i ← goIndexI plane (pickPos p.rect x y)
    let c ← goIndex p.palette i.toNat
    .ok (.entry c)
  | .gray1 => do                                     -- picker.go:121-125
    let plane ← goIndex p.src 0
    let xx := x - p.rect.minX
    let pos := (p.rect.dx + 7) / 8 * (y - p.rect.minY) + xx / 8
    let b ← goIndexI plane pos
    -- ^xx & 7 = 7 - (xx mod 8)
    .ok (.bit (!b.toNat.testBit (7 - (xx % 8).toNat)))
  | .gray sz => do                                   -- picker.go:135-138, 178-181, 221-224
    let vs ← pickSamples sz (pickPos p.rect x y) p.src
    .ok (.samples vs)
  -- picker.go:150-153, 165-168, 193-196, 208-211, 236-239, 251-257, 269-277, 289-292, 304-312, 324-332, 344-352, 364-372, 384-393, 405-414, 426-435, 447-456
  | .planes _ sz _ => do
    let vs ← pickSamples sz (pickPos p.rect x y) p.src
    .ok (.samples vs)

end Psd
