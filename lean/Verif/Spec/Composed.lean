import Verif.Spec.Picture

/-!
# Documents that differ in the contents of a folder
-/

namespace Psd

/-- Layers painted on nothing look the same at pixel `i` as other layers do. -/
def LooksAlike (dec : List UInt8 → Option (List UInt8)) (pic : Int → Option Tile) (mask : Int → Option (Nat → UInt8)) (i : Nat) (xs ys : List (LTree LayerRec)) : Prop :=
  ∀ t t' r r', IsStack dec pic mask xs t → IsStack dec pic mask ys t' → paint tileOps t false id tileOps.blank = .ok r → paint tileOps t' false id tileOps.blank = .ok r' →
    (r.2 i).Same (r'.2 i)

/-- The second document has the layers `ys` where the first has `xs`: as a whole, or as the contents of a folder, which may be in other folders. None of these folders is pass-through or has
pixels of its own. -/
inductive InFolder {P : Type} (canvas : Int → Option P) (xs ys : List (LTree LayerRec)) : List (LTree LayerRec) → List (LTree LayerRec) → Prop
  | whole : InFolder canvas xs ys xs ys
  | inside (below above : List (LTree LayerRec)) (f : LayerRec) (sub sub' : List (LTree LayerRec)) : (f.folder = true → f.sdBlendMode ≠ ascii "pass") → canvas f.seqID = none →
      InFolder canvas xs ys sub sub' → InFolder canvas xs ys (below ++ .node f sub :: above) (below ++ .node f sub' :: above)

end Psd
