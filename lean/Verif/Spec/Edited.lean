import Verif.Spec.CTree
import Verif.Model.Renderer

/-!
# What an edited tree stands for
-/

namespace Psd

/-- The tree at `root` is that of the document: below the root, which is as `New` makes it, there is a layer at exactly the paths at which the document has one, with its attributes. -/
structure TreeShows (dec : List UInt8 → Option (List UInt8)) (h : CHeap) (root : Ptr) (layers : List (LTree LayerRec)) : Prop where
  top : (h.at_ root).attr = rootAttr
  layer : ∀ i π l kids, docAt layers (i :: π) = some (.node l kids) → ∃ q, slotAt h root (i :: π) = some q ∧ ShowsLayer dec l (h.at_ q).attr
  nothing : ∀ i π, docAt layers (i :: π) = none → slotAt h root (i :: π) = none

/-- The document with one record changed, at the path `π` of the subtree. -/
def LTree.edit {α : Type} (f : α → α) : List Nat → LTree α → LTree α
  | [], .node l kids => .node (f l) kids
  | i :: π, .node l kids => .node l (kids.modify i (LTree.edit f π))

/-- The document with the record of the layer at the path changed; nothing else is. -/
def docEdit {α : Type} (f : α → α) : List Nat → List (LTree α) → List (LTree α)
  | [], layers => layers
  | i :: π, layers => layers.modify i (LTree.edit f π)

/-- The record of a layer that is shown or hidden: bit 1 of the flags. -/
def LayerRec.withVisible (v : Bool) (l : LayerRec) : LayerRec := { l with flags := if v then l.flags &&& 253 else l.flags ||| 2 }

end Psd
