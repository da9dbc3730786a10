import Verif.Spec.CTree
import Verif.Model.Renderer

/-!
# Trees a renderer can be trusted with
-/

namespace Psd

/-- The tree of a scene is as `New` and `Clone` make it: it is at most `depth` levels deep, no two layers have the same number, and the
layers have the clipping links they should. -/
structure TreeOk {P M : Type} (s : Scene P M) (depth : Nat) : Prop where
  finite : ∀ π q, slotAt s.h s.root π = some q → π.length ≤ depth
  unique : UniqueIDs s.h s.root
  rootID : (s.h.at_ s.root).attr.seqID = seqIDRoot
  clipping : ∀ π q, slotAt s.h s.root π = some q → ClippingOk s.h (s.h.at_ q).children.arr (s.h.at_ q).children.len

/-- Moreover the parent of every layer is the folder it is in, as `Clone` makes it, and folders have no pixels of their own. -/
structure Linked {P M : Type} (s : Scene P M) (depth : Nat) : Prop extends TreeOk s depth where
  parents : ∀ π q, slotAt s.h s.root π = some q → ∀ i, i < (s.h.at_ q).children.len → (s.h.at_ ((s.h.at_ q).children.arr, i)).parent = some q
  folders : ∀ π q, slotAt s.h s.root π = some q → 0 < (s.h.at_ q).children.len → s.canvas (s.h.at_ q).attr.seqID = none

/-- Every layer has an opacity in `Op` and a blend mode in `Md`, or is pass-through: the latter only if no layers are clipped to it, or
these are blended with it. -/
def Supported {P M : Type} (Op : Nat → Prop) (Md : List UInt8 → Prop) (s : Scene P M) : Prop :=
  ∀ π q, π ≠ [] → slotAt s.h s.root π = some q →
    Op (s.h.at_ q).attr.opacity ∧
      (Md (s.h.at_ q).attr.blendMode ∨ (s.h.at_ q).attr.blendMode = passThrough ∧ ((s.h.at_ q).clip = [] ∨ (s.h.at_ q).attr.blendClippedElements = true))

/-- A caller changes the layers `ps` of a tree: any attributes but the number and whether it is a clipping layer. A layer that is no
longer pass-through has no pass-through layers in it. -/
structure EditOk (h h' : CHeap) (root : Ptr) (ps : List Ptr) : Prop where
  links : ∀ q, (h'.at_ q).children = (h.at_ q).children ∧ (h'.at_ q).parent = (h.at_ q).parent ∧ (h'.at_ q).clip = (h.at_ q).clip ∧
    (h'.at_ q).clippedBy = (h.at_ q).clippedBy
  fixed : ∀ q, (h'.at_ q).attr.seqID = (h.at_ q).attr.seqID ∧ (h'.at_ q).attr.clipping = (h.at_ q).attr.clipping
  others : ∀ q, q ∉ ps → (h'.at_ q).attr = (h.at_ q).attr
  layers : ∀ p ∈ ps, ∃ π, slotAt h root π = some p
  pass : ∀ p ∈ ps, (h.at_ p).attr.blendMode = passThrough → (h'.at_ p).attr.blendMode ≠ passThrough →
    ∀ i, i < (h.at_ p).children.len → (h'.at_ ((h.at_ p).children.arr, i)).attr.blendMode ≠ passThrough

/-- Every pixel of every layer is opaque or fully transparent, and every mask hides a pixel or does not. -/
structure HardEdged (s : Scene Tile (Nat → UInt8)) : Prop where
  pics : ∀ id c, s.canvas id = some c → ∀ x ∈ c, ∀ i, (x.2 i).a = 0 ∨ (x.2 i).a = 255
  masks : ∀ id, ∀ x ∈ s.mask id, ∀ i, x.2 i = 0 ∨ x.2 i = 255

/-- Every layer is fully opaque or not to be seen, and has a blend mode there is an operator for, or is pass-through and can be. -/
def FullyShown {P M : Type} (s : Scene P M) : Prop := Supported (fun o => o = 0 ∨ o = 255) (fun m => blendMode m ≠ none) s

/-- Events other than changes of the tree. -/
def NoChange {P M : Type} (_ : RSys P M) (ev : REvent P) : Prop := ∀ h, ev ≠ .change h

/-- What can become of a new renderer of the tree `s` while its tree is not changed: renders, cancelled or not, and dirty marks at any
time. -/
inductive Rendered {P M : Type} (ops : PicOps P M) (fuel : Nat) (s : Scene P M) : RSys P M → Prop
  | new (dest : TPt → P) (diff : Bool) : Rendered ops fuel s ⟨s, .empty, dest, diff, none⟩
  | step (y y' : RSys P M) (ev : REvent P) : Rendered ops fuel s y → NoChange y ev → y.step ops fuel ev = .ok y' → Rendered ops fuel s y'

/-- The same with changes: between two renders layers may be changed, and then all of these are marked dirty. `Ok` holds for every tree
rendered. -/
inductive Lived {P M : Type} (ops : PicOps P M) (fuel : Nat) (Ok : Scene P M → Prop) (s : Scene P M) : RSys P M → Prop
  | new (dest : TPt → P) (diff : Bool) : Ok s → Lived ops fuel Ok s ⟨s, .empty, dest, diff, none⟩
  | step (y y' : RSys P M) (ev : REvent P) : Lived ops fuel Ok s y → NoChange y ev → y.step ops fuel ev = .ok y' → Lived ops fuel Ok s y'
  | edit (y y' : RSys P M) (h' : CHeap) (ps : List Ptr) : Lived ops fuel Ok s y → y.pending = none → EditOk y.scene.h h' y.scene.root ps →
      Ok { y.scene with h := h' } → RSys.run ops fuel (.change h' :: ps.map .dirty) y = .ok y' → Lived ops fuel Ok s y'

/-- What can become of a new renderer if every render is onto the picture of the last one, and the first onto any: renders, cancelled or
not, dirty marks and any changes of the tree, marked or not, at any time. -/
inductive Kept {P M : Type} (ops : PicOps P M) (fuel : Nat) : RSys P M → Prop
  | new (s : Scene P M) (dest : TPt → P) (diff : Bool) : Kept ops fuel ⟨s, .empty, dest, diff, none⟩
  | step (y y' : RSys P M) (ev : REvent P) : Kept ops fuel y → (∀ dest diff, ev = .start dest diff → dest = y.dest) → y.step ops fuel ev = .ok y' →
      Kept ops fuel y'

end Psd
