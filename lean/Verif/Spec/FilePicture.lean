import Verif.Spec.File
import Verif.Spec.Names
import Verif.Model.Config

/-
What the layers of a file look like, in terms of the abstract contents of `Spec/File.lean`: the
values of their channels at a pixel, and which layers cover what is below them.
-/

namespace Psd.Spec

/-- `(x, y)` is a pixel of the box. -/
def Box.Has (b : Box) (x y : Int) : Prop := b.left ≤ x ∧ x < b.right ∧ b.top ≤ y ∧ y < b.bottom

instance Box.decHas (b : Box) (x y : Int) : Decidable (b.Has x y) := inferInstanceAs (Decidable (_ ∧ _ ∧ _ ∧ _))

/-- The value of channel `id` at the pixel `(x, y)` of an 8-bit document: the rows of the channel's own
box one after the other. `none` outside it, and if the layer has no such channel. -/
def Layer.sample (l : Layer) (id x y : Int) : Option UInt8 :=
  if (l.boxOf id).Has x y then
    (l.lastChannel id).bind fun p =>
      p.plane[((y - (l.boxOf id).top) * ((l.boxOf id).right - (l.boxOf id).left) + (x - (l.boxOf id).left)).toNat]?
  else none

/-- The flags of the mask; its default colour. -/
def MaskSpec.flags : MaskSpec → UInt8
  | .absent => 0
  | .short _ _ f _ _ => f
  | .full _ _ f _ _ _ _ => f
  | .block b => UInt8.ofNat (MaskBlock.flags b)

def MaskSpec.color : MaskSpec → UInt8
  | .absent => 0
  | .short _ c _ _ _ => c
  | .full _ c _ _ _ _ _ => c
  | .block b => UInt8.ofNat (MaskBlock.color b)

/-- The mask has an area, and flag bit 1, which disables it, is not set. -/
def MaskSpec.On (m : MaskSpec) : Prop := m.box.left < m.box.right ∧ m.box.top < m.box.bottom ∧ m.flags.toNat / 2 % 2 = 0

instance MaskSpec.decOn (m : MaskSpec) : Decidable m.On := inferInstanceAs (Decidable (_ ∧ _ ∧ _))

/-- An ordinary layer in normal mode, at full opacity, visible, without a mask that is on, and not a
clipping layer. -/
structure Layer.Plain (l : Layer) : Prop where
  kind : l.kind = 0
  mode : l.blend = ascii "norm"
  opacity : l.opacity = 255
  clipping : l.clipping = 0
  visible : l.flags.toNat / 2 % 2 = 0
  unmasked : ¬l.mask.On

/-- The blend mode of a folder is that of its section divider, if there is one, and that of the layer
record otherwise. -/
def Layer.folderBlend (l : Layer) : List UInt8 :=
  match l.divider with
  | some ⟨_, some (bm, _)⟩ => bm
  | _ => l.blend

/-- The blend mode of a layer or folder is one of the format's, or pass through. A folder in pass
through mode is not one whose clipping layers are to be blended one by one. -/
def Layer.ModeKnown (l : Layer) : Prop :=
  if l.kind = 1 ∨ l.kind = 2 then
    (∃ m, l.folderBlend = ascii (modeKey m)) ∨ l.folderBlend = ascii "pass" ∧ l.clbl ≠ some false
  else (∃ m, l.blend = ascii (modeKey m)) ∨ l.blend = ascii "pass"

/-- A layer with a picture has red, green and blue. -/
def Layer.Rgb (l : Layer) : Prop :=
  l.kind = 0 → l.rect.left < l.rect.right → l.rect.top < l.rect.bottom → ∀ id ∈ [(0 : Int), 1, 2], (l.lastChannel id).isSome = true

/-- The mask, if it is on and has values, has one on the canvas that is not its default colour. -/
def Layer.MaskVaries (l : Layer) : Prop :=
  l.mask.On → (l.lastChannel (-2)).isSome = true →
    ∃ x y v, 0 ≤ x ∧ 0 ≤ y ∧ l.sample (-2) x y = some v ∧ v ≠ (if l.mask.color = 0 then 0 else 255)

end Psd.Spec
