import Verif.Spec.Channels

/-!
# Modes that make nothing brighter than both layers
-/

namespace Psd

/-- The modes that by their formula never give more than the brighter of layer and backdrop. -/
def Sep.dimming : Sep → Bool
  | .normal | .darken | .multiply | .colorBurn | .linearBurn | .subtract | .lighten | .pinLight | .difference => true
  | _ => false

def Mode.Dimming : Mode → Prop
  | .sep m => m.dimming = true
  | .darkerColor | .lighterColor => True
  | .nonSep _ => False

/-- At pixel `i` of a tile the masks in effect are black or white, or they are on layers that are opaque or fully transparent there. (Masks are stored as their difference from their default colour,
which is black or white.) -/
def MasksHard (doc : List (LTree LayerRec)) (canvas : Int → Option (List (TPt × Tile))) (mask : Int → List (TPt × (Nat → UInt8))) (pt : TPt) (i : Nat) : Prop :=
  ∀ π l kids, docAt doc π = some (.node l kids) → l.mask.enabled = true → ∀ v, (mask l.seqID).lookup pt = some v → v i = 0 ∨ v i = 255 ∨
    kids = [] ∧ ∀ x, (canvas l.seqID).bind (·.lookup pt) = some x → (x i).a = 0 ∨ (x i).a = 255

end Psd
