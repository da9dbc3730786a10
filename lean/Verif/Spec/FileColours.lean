import Verif.Spec.PixelPaint
import Verif.Spec.Brightest

/-!
# The blend modes and the masks of a file
-/

namespace Psd.Spec

/-- The blend mode of a layer or folder is one of those in `Q`, or pass through. -/
def Layer.BlendIn (Q : Mode → Prop) (l : Layer) : Prop :=
  if l.kind = 1 ∨ l.kind = 2 then (∃ m, l.folderBlend = ascii (modeKey m) ∧ Q m) ∨ l.folderBlend = ascii "pass"
  else (∃ m, l.blend = ascii (modeKey m) ∧ Q m) ∨ l.blend = ascii "pass"

/-- If the layer has a mask in effect, this is black or white at `(x, y)`, or it is the mask of a layer (not of a folder) that is opaque or fully transparent there. -/
def Layer.MaskHardAt (l : Layer) (x y : Int) : Prop :=
  l.mask.On → l.veil x y = 0 ∨ l.veil x y = 255 ∨ l.kind ≠ 1 ∧ l.kind ≠ 2 ∧ ∀ q, l.colour x y = some q → q.a = 255

end Psd.Spec
