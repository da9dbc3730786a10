import Verif.Spec.PixelPaint
import Verif.Spec.Rendered
import Verif.Spec.WithAttr

/-!
# Working on the layers of a file
-/

namespace Psd

/-- The layer `l` of a file, shown or hidden, with another opacity and another blend mode. -/
def Spec.Layer.Restyled (l l' : Spec.Layer) : Prop := l' = { l with flags := l'.flags, opacity := l'.opacity, blend := l'.blend }

/-- What a program that gives a layer of a tree the visibility, opacity and blend mode of `l` makes of its attributes. -/
def restyle (l : Spec.Layer) (a : CAttr) : CAttr := { a with visible := l.flags.toNat / 2 % 2 == 0, opacity := l.opacity.toNat, blendMode := l.blend }

/-- What can become of a new renderer of the tree `s` of a file with the layers `ls`, and of the layers: it renders, or a render is cancelled; layers are marked dirty; and between renders layers
of the tree are given another visibility, opacity or blend mode and are marked dirty. -/
inductive Worked (fuel : Nat) (s : Scene Tile (Nat → UInt8)) (ls : List Spec.Layer) : List Spec.Layer → RSys Tile (Nat → UInt8) → Prop
  | new (dest : TPt → Tile) (diff : Bool) : Worked fuel s ls ls ⟨s, .empty, dest, diff, none⟩
  | step (now : List Spec.Layer) (z z' : RSys Tile (Nat → UInt8)) (ev : REvent Tile) : Worked fuel s ls now z → (∀ h, ev ≠ .change h) → z.step tileOps fuel ev = .ok z' → Worked fuel s ls now z'
  | restyle (now : List Spec.Layer) (z z' : RSys Tile (Nat → UInt8)) (i : Nat) (old l : Spec.Layer) (p : Ptr) : Worked fuel s ls now z → z.pending = none → now[i]? = some old →
      old.Restyled l → (∃ m, blendMode l.blend = some m) → slotAt z.scene.h z.scene.root [i] = some p →
      RSys.run tileOps fuel [.change (withAttr z.scene.h p (restyle l)), .dirty p] z = .ok z' → Worked fuel s ls (now.set i l) z'

end Psd
