import Verif.Spec.CTree

/-!
# Trees that look the same
-/

namespace Psd

/-- The trees at `p` and `p'`, maybe in different memory, have layers at the same paths, with the same attributes. -/
def AlikeTrees (h : CHeap) (p : Ptr) (h' : CHeap) (p' : Ptr) : Prop :=
  ∀ π, (slotAt h p π).map (fun q => (h.at_ q).attr) = (slotAt h' p' π).map (fun q => (h'.at_ q).attr)

/-- The memory of a tree: its layers exist, and their clipping links lead to layers of the tree. -/
structure Owned (h : CHeap) (p : Ptr) : Prop where
  exist : ∀ π q, slotAt h p π = some q → q.1 < h.next
  links : LinksInside h p

end Psd
