import Verif.Spec.FilePicture
import Verif.Model.Renderer

/-
What is seen of the layers of a file at one pixel.
-/

namespace Psd

/-- The drawing operations on one pixel: composite/draw.go:42-53 and the operators of package blend, with
non-premultiplied pixels. A blend mode that is not in the table is a nil interface. -/
def pxOps : PicOps Px UInt8 where
  blank := ⟨0, 0, 0, 0⟩
  copy src := pxOr src (drawPD .copy .nrgba (.px .nrgba src) ⟨0, 0, 0, 0⟩)
  draw opacity bm dst src :=
    match blendMode bm with
    | none => .panic .nilDeref
    | some m => .ok (pxOr dst (drawNN m (UInt32.ofNat (opacity % 256)) src dst))
  destIn dst src := pxOr dst (drawPD .destIn .nrgba (.px .nrgba src) dst)
  destOver dst src := pxOr dst (drawPD .destOver .nrgba (.px .nrgba src) dst)
  maskIn dst m := pxOr dst (drawPD .destIn .nrgba (.alpha m) dst)
  maskOut dst m := pxOr dst (drawPD .destOut .nrgba (.alpha m) dst)
  clear dst := pxOr dst (drawPD .clear .nrgba (.uniform ⟨0, 0, 0, 0⟩) dst)
  removeAlpha b := { b with a := 255 }

namespace Spec

/-- The two pixels are in the same tile. -/
def SharedTile (ts : Nat) (x y x' y' : Int) : Prop := x' / ts = x / ts ∧ y' / ts = y / ts

/-- The colour of the layer at `(x, y)`, in an 8-bit RGB file: nothing where it is transparent, and outside
of it. A layer without an alpha channel is opaque. -/
def Layer.colour (l : Layer) (x y : Int) : Option Px :=
  if l.kind = 0 then
    match l.sample 0 x y, l.sample 1 x y, l.sample 2 x y with
    | some r, some g, some b =>
      if (l.lastChannel (-1)).isSome then
        match l.sample (-1) x y with
        | some a => if a = 0 then none else some ⟨r, g, b, a⟩
        | none => none
      else some ⟨r, g, b, 255⟩
    | _, _, _ => none
  else none

/-- How much the layer's mask differs at `(x, y)` from what it is by default: from black, if the default
colour is 0, and from white otherwise. Outside of the mask it does not. -/
def Layer.veil (l : Layer) (x y : Int) : UInt8 :=
  match l.sample (-2) x y with
  | some v => if l.mask.color = 0 then v else 255 - v
  | none => 0

/-- What the renderer has of the layer at `(x, y)`: nothing, if nothing of the layer is visible in the
whole tile, and the layer's pixel otherwise. -/
def Layer.PixelIs (l : Layer) (ts : Nat) (x y : Int) : Option Px → Prop
  | none => ∀ x' y', SharedTile ts x y x' y' → l.colour x' y' = none
  | some p => (∃ x' y', SharedTile ts x y x' y' ∧ l.colour x' y' ≠ none) ∧ p = (l.colour x y).getD ⟨0, 0, 0, 0⟩

/-- What the renderer has of the layer's mask at `(x, y)`. -/
def Layer.MaskIs (l : Layer) (ts : Nat) (x y : Int) : Option UInt8 → Prop
  | none => ∀ x' y', SharedTile ts x y x' y' → l.veil x' y' = 0
  | some v => (∃ x' y', SharedTile ts x y x' y' ∧ l.veil x' y' ≠ 0) ∧ v = l.veil x y

/-- A visible or hidden layer that is no folder, is no clipping layer, has no mask in effect, and has one of
the blend modes. -/
structure Layer.Simple (l : Layer) : Prop where
  kind : l.kind = 0
  mode : ∃ m, blendMode l.blend = some m
  clipping : l.clipping = 0
  unmasked : ¬l.mask.On

/-- The layer drawn onto the pixel `p` at `(x, y)`, with its blend mode and its opacity: nothing changes
if the layer is hidden, has opacity 0, or is transparent there. -/
def Layer.onto (l : Layer) (x y : Int) (p : Px) : Px :=
  if l.flags.toNat / 2 % 2 = 0 ∧ l.opacity ≠ 0 then
    match l.colour x y, blendMode l.blend with
    | some q, some m => pxOr p (drawNN m l.opacity.toUInt32 (pxOps.copy q) p)
    | _, _ => p
  else p

end Spec

end Psd
