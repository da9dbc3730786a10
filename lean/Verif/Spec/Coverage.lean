import Verif.Spec.Picture

/-!
# Layers that cover more
-/

namespace Psd

/-- Every layer and folder has full opacity, or none. -/
def FullOrNone (layers : List (LTree LayerRec)) : Prop :=
  ∀ π l kids, docAt layers π = some (.node l kids) → l.opacity = 0 ∨ l.opacity = 255

/-- The layers have pixels in the same tiles, and in the tile `pt` the pixel `i` of every layer is fully opaque or fully transparent, and opaque in the second file if it is in the first. -/
def CoversMore (canvas canvas' : Int → Option (List (TPt × Tile))) (pt : TPt) (i : Nat) : Prop :=
  ∀ id, match (canvas id).bind (·.lookup pt), (canvas' id).bind (·.lookup pt) with
    | none, none => True
    | some t, some t' => ((t i).a = 0 ∨ (t i).a = 255) ∧ ((t' i).a = 0 ∨ (t' i).a = 255) ∧ (t i).a ≤ (t' i).a
    | _, _ => False

/-- The layers have pixels in the same tiles, and in the tile `pt` the pixel `i` of no layer is less opaque in the second file than in the first. -/
def MoreOpaque (canvas canvas' : Int → Option (List (TPt × Tile))) (pt : TPt) (i : Nat) : Prop :=
  ∀ id, match (canvas id).bind (·.lookup pt), (canvas' id).bind (·.lookup pt) with
    | none, none => True
    | some t, some t' => (t i).a ≤ (t' i).a
    | _, _ => False

end Psd
