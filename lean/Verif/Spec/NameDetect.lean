import Verif.Spec.CTree

/-!
# Names in legacy encodings
-/

namespace Psd

mutual

/-- A layer and the layers in it, from the bottom to the top. -/
def LTree.all {α : Type} : LTree α → List α
  | .node l kids => l :: allLayers kids

/-- The layers of a document, each followed by those in it. -/
def allLayers {α : Type} : List (LTree α) → List α
  | [] => []
  | k :: ks => k.all ++ allLayers ks

end

/-- The layer has a name, but only one in a legacy encoding. -/
def LayerRec.LegacyName (l : LayerRec) : Prop := l.unicodeName = [] ∧ l.mbcsName ≠ []

instance (l : LayerRec) : Decidable l.LegacyName := by unfold LayerRec.LegacyName; infer_instance

/-- All legacy names of a document, one after the other. -/
def legacyNames (layers : List (LTree LayerRec)) : List UInt8 := (allLayers layers).flatMap (·.mbcsName)

end Psd
