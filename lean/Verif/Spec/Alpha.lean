import Verif.Spec.Picture

/-!
# Documents with other colours
-/

namespace Psd

/-- The same layer in another blend mode. A folder that is pass-through stays so, and no other becomes one. -/
def LayerRec.SameButMode (l l' : LayerRec) : Prop :=
  l' = { l with blendMode := l'.blendMode, sdBlendMode := l'.sdBlendMode } ∧ (l.folder = true → (l.sdBlendMode = ascii "pass" ↔ l'.sdBlendMode = ascii "pass"))

/-- The same layers in the same folders, in other blend modes. -/
inductive OtherModes : List (LTree LayerRec) → List (LTree LayerRec) → Prop
  | nil : OtherModes [] []
  | cons (l l' : LayerRec) (sub sub' rest rest' : List (LTree LayerRec)) : l.SameButMode l' → OtherModes sub sub' → OtherModes rest rest' → OtherModes (.node l sub :: rest) (.node l' sub' :: rest')

/-- The layers have pixels in the same tiles, and in the tile `pt` the pixel `i` of every layer is as opaque in the one as in the other. -/
def SameAlphas (canvas canvas' : Int → Option (List (TPt × Tile))) (pt : TPt) (i : Nat) : Prop :=
  ∀ id, ((canvas id).bind (·.lookup pt)).map (fun t => (t i).a) = ((canvas' id).bind (·.lookup pt)).map (fun t => (t i).a)

end Psd
