import Verif.Spec.Picture
import Verif.Spec.BlendLaws
import Verif.Props.Modes

/-!
# The colour channels of documents
-/

namespace Psd

inductive Primary where
  | red | green | blue
  deriving DecidableEq, Repr

/-- The value of a pixel in a channel. -/
def Px.chan (p : Px) : Primary → UInt8
  | .red => p.r
  | .green => p.g
  | .blue => p.b

/-- The blend modes of a document are all among those in `Q`, except that folders may be pass-through. (A layer that is not a folder and says `pass` is drawn in normal mode.) -/
def ModesIn (Q : Mode → Prop) (layers : List (LTree LayerRec)) : Prop :=
  ∀ π l kids, docAt layers π = some (.node l kids) →
    (l.folder = false → (∃ m, blendMode l.blendMode = some m ∧ Q m) ∨ l.blendMode = ascii "pass") ∧
    (l.folder = true → (∃ m, blendMode l.sdBlendMode = some m ∧ Q m) ∨ l.sdBlendMode = ascii "pass")

/-- The modes that work on each channel by itself. -/
def Mode.Separable : Mode → Prop
  | .sep _ => True
  | _ => False

/-- The modes whose result grows both with the layer and with what is below it, by their formula. -/
def Mode.Growing : Mode → Prop
  | .sep m => m.increasing = true ∧ m.increasingInSource = true
  | _ => False

/-- The layers have pixels in the same tiles, and in the tile `pt` the pixel `i` of every layer is as opaque in the one as in the other, and where it is not fully transparent,
`R` is between its colours. -/
def PixelsRel (R : Px → Px → Prop) (canvas canvas' : Int → Option (List (TPt × Tile))) (pt : TPt) (i : Nat) : Prop :=
  ∀ id, match (canvas id).bind (·.lookup pt), (canvas' id).bind (·.lookup pt) with
    | none, none => True
    | some t, some t' => (t i).a = (t' i).a ∧ ((t i).a ≠ 0 → R (t i) (t' i))
    | _, _ => False

end Psd
