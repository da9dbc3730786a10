import Verif.Model.CTree

/-!
# Changing a layer of a tree
-/

namespace Psd

/-- A tree with a layer changed. -/
def withAttr (h : CHeap) (p : Ptr) (f : CAttr → CAttr) : CHeap :=
  { h with at_ := fun q => if q = p then { h.at_ q with attr := f (h.at_ q).attr } else h.at_ q }

end Psd
