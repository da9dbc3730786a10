import Verif.Spec.Picture

/-!
# What covers what is below
-/

namespace Psd

/-- The layer is an ordinary one in normal mode, visible at full opacity, with no mask in effect. -/
structure LayerRec.Solid (l : LayerRec) : Prop where
  layer : l.folder = false
  visible : l.visible = true
  opacity : l.opacity = 255
  mode : l.blendMode = ascii "norm"
  unmasked : ¬(l.mask.enabled = true ∧ l.mask.rect.minX < l.mask.rect.maxX ∧ l.mask.rect.minY < l.mask.rect.maxY)

/-- The folder is a pass-through one or in normal mode, visible at full opacity, with no mask in effect. -/
structure LayerRec.SolidFolder (f : LayerRec) : Prop where
  folder : f.folder = true
  visible : f.visible = true
  opacity : f.opacity = 255
  mode : f.sdBlendMode = ascii "norm" ∨ f.sdBlendMode = ascii "pass"
  unmasked : ¬(f.mask.enabled = true ∧ f.mask.rect.minX < f.mask.rect.maxX ∧ f.mask.rect.minY < f.mask.rect.maxY)

/-- A layer whose own pixel is opaque (`O`), or a folder with one in it, or with such a folder in it. None of them is a clipping layer. -/
inductive Covering (O : LayerRec → Prop) : LTree LayerRec → Prop
  | layer (l : LayerRec) : l.Solid → l.clipping = false → O l → Covering O (.node l [])
  | folder (f : LayerRec) (below : List (LTree LayerRec)) (x : LTree LayerRec) (above : List (LTree LayerRec)) : f.SolidFolder → f.clipping = false → Covering O x →
      Covering O (.node f (below ++ x :: above))

/-- The second document is the first without what is below a layer or folder that covers it: at the top level, or in a folder, or in a folder in a folder and so on. Of these folders, those that
are pass-through are at full opacity. -/
inductive BelowGone (O : LayerRec → Prop) : List (LTree LayerRec) → List (LTree LayerRec) → Prop
  | here (below : List (LTree LayerRec)) (x : LTree LayerRec) (above : List (LTree LayerRec)) : Covering O x → BelowGone O (below ++ x :: above) (x :: above)
  | inside (below : List (LTree LayerRec)) (f : LayerRec) (sub sub' above : List (LTree LayerRec)) : f.folder = true → f.clipping = false → (f.sdBlendMode = ascii "pass" → f.opacity = 255) →
      BelowGone O sub sub' → BelowGone O (below ++ .node f sub :: above) (below ++ .node f sub' :: above)

/-- The layer is the topmost one of the document, in no folder or in topmost ones. It is not a clipping layer and nothing is clipped to it. -/
inductive Topmost (l : LayerRec) : List (LTree LayerRec) → Prop
  | layer (below : List (LTree LayerRec)) : l.Solid → l.clipping = false → Topmost l (below ++ [.node l []])
  | folder (below : List (LTree LayerRec)) (f : LayerRec) (sub : List (LTree LayerRec)) : f.SolidFolder → f.clipping = false → Topmost l sub → Topmost l (below ++ [.node f sub])

end Psd
