import Verif.Spec.Composed

/-!
# Documents that differ in the contents of a folder of any kind
-/

namespace Psd

/-- The second document has the layers `ys` where the first has `xs`: as a whole, or as the contents of a folder, which may be in other folders. These folders may be pass-through, at any
opacity, but none is clipped to anything. -/
inductive InAnyFolder (xs ys : List (LTree LayerRec)) : List (LTree LayerRec) → List (LTree LayerRec) → Prop
  | whole : InAnyFolder xs ys xs ys
  | inside (below above : List (LTree LayerRec)) (f : LayerRec) (sub sub' : List (LTree LayerRec)) : f.clipping = false →
      InAnyFolder xs ys sub sub' → InAnyFolder xs ys (below ++ .node f sub :: above) (below ++ .node f sub' :: above)

end Psd
