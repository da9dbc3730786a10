import Verif.Spec.Rendered

/-!
# Trees whose folders are solid
-/

namespace Psd

/-- The pixel `i` of the tile `pt` of the layer is opaque or fully transparent, its mask hides this pixel or does not, and the layer is fully opaque or not to be seen. -/
structure HardAt (s : Scene Tile (Nat → UInt8)) (pt : TPt) (i : Nat) (q : Ptr) : Prop where
  pic : ∀ p, s.pic (s.h.at_ q).attr.seqID pt = some p → (p i).a = 0 ∨ (p i).a = 255
  mask : ∀ m, (s.mask (s.h.at_ q).attr.seqID).lookup pt = some m → m i = 0 ∨ m i = 255
  opacity : (s.h.at_ q).attr.opacity = 0 ∨ (s.h.at_ q).attr.opacity = 255

/-- At this pixel top-level layers may be as transparent as they like, and so may folders as a whole; but what is in folders or clipped to folders is hard-edged there, and so are the masks of
folders and all that is below a pass-through folder. -/
structure SolidAt (s : Scene Tile (Nat → UInt8)) (pt : TPt) (i : Nat) : Prop where
  inside : ∀ k π q, π ≠ [] → slotAt s.h s.root (k :: π) = some q → HardAt s pt i q
  masks : ∀ k q, slotAt s.h s.root [k] = some q → 0 < (s.h.at_ q).children.len → ∀ m, (s.mask (s.h.at_ q).attr.seqID).lookup pt = some m → m i = 0 ∨ m i = 255
  clips : ∀ k q, slotAt s.h s.root [k] = some q → 0 < (s.h.at_ q).children.len → ∀ r, some r ∈ (s.h.at_ q).clip → HardAt s pt i r
  pass : ∀ k q, slotAt s.h s.root [k] = some q → 0 < (s.h.at_ q).children.len → (s.h.at_ q).attr.blendMode = passThrough →
    ∀ j r, j ≤ k → slotAt s.h s.root [j] = some r → HardAt s pt i r

/-- So it is at every pixel. -/
def SolidFolders (s : Scene Tile (Nat → UInt8)) : Prop := ∀ pt i, SolidAt s pt i

/-- There is an operator for the blend mode of every layer, or it is pass-through and can be. -/
def ModesKnown {P M : Type} (s : Scene P M) : Prop := Supported (fun _ => True) (fun m => blendMode m ≠ none) s

end Psd
