import Verif.Spec.FilePair

/-!
# Files with some layers more or less, or in another order
-/

namespace Psd.Spec

/-- The record a layer or folder of a file has its settings in. -/
def Node.own {α : Type} : Node α → α
  | .layer l => l
  | .folder _ _ l => l

/-- The layer or folder is hidden: it is invisible, or its opacity is 0. -/
def Layer.Hidden (l : Layer) : Prop := l.flags.toNat / 2 % 2 = 1 ∨ l.opacity = 0

/-- The second list of layers and folders is the first without some of those that are hidden. They are left out with the layers clipped to them, which are the clipping layers next above
them. -/
inductive WithoutHiddenLayers : List (Node Layer) → List (Node Layer) → Prop
  | nil : WithoutHiddenLayers [] []
  | layer (l : Layer) (rest rest' : List (Node Layer)) : WithoutHiddenLayers rest rest' → WithoutHiddenLayers (.layer l :: rest) (.layer l :: rest')
  | folder (d l : Layer) (sub sub' rest rest' : List (Node Layer)) : WithoutHiddenLayers sub sub' → WithoutHiddenLayers rest rest' →
      WithoutHiddenLayers (.folder d sub l :: rest) (.folder d sub' l :: rest')
  | drop (n : Node Layer) (above over over' : List (Node Layer)) : n.own.clipping = 0 → n.own.Hidden → (∀ k ∈ above, k.own.clipping ≠ 0) → (∀ k ∈ over.head?, k.own.clipping = 0) →
      WithoutHiddenLayers over over' → WithoutHiddenLayers (n :: (above ++ over)) over'

mutual
/-- A folder without the clipping layers in it. -/
def Node.withoutClips : Node Layer → Node Layer
  | .layer l => .layer l
  | .folder d kids l => .folder d (withoutClips kids) l

/-- Layers and folders without the clipping layers among them and in the folders. -/
def withoutClips : List (Node Layer) → List (Node Layer)
  | [] => []
  | n :: ns => if n.own.clipping = 0 then n.withoutClips :: withoutClips ns else withoutClips ns
end

/-- The second list of layers and folders is the first without some of the layers clipped to layers and folders whose "Blend Clipped Layers as Group" is off. -/
inductive WithoutUnblendedLayers : List (Node Layer) → List (Node Layer) → Prop
  | nil : WithoutUnblendedLayers [] []
  | layer (l : Layer) (rest rest' : List (Node Layer)) : WithoutUnblendedLayers rest rest' → WithoutUnblendedLayers (.layer l :: rest) (.layer l :: rest')
  | folder (d l : Layer) (sub sub' rest rest' : List (Node Layer)) : WithoutUnblendedLayers sub sub' → WithoutUnblendedLayers rest rest' →
      WithoutUnblendedLayers (.folder d sub l :: rest) (.folder d sub' l :: rest')
  | drop (l : Layer) (above over over' : List (Node Layer)) : l.clipping = 0 → l.clbl.getD true = false → (∀ k ∈ above, k.own.clipping ≠ 0) → (∀ k ∈ over.head?, k.own.clipping = 0) →
      WithoutUnblendedLayers over over' → WithoutUnblendedLayers (.layer l :: (above ++ over)) (.layer l :: over')
  | drop_folder (d l : Layer) (sub sub' above over over' : List (Node Layer)) : l.clipping = 0 → l.clbl.getD true = false → (∀ k ∈ above, k.own.clipping ≠ 0) → (∀ k ∈ over.head?, k.own.clipping = 0) →
      WithoutUnblendedLayers sub sub' → WithoutUnblendedLayers over over' → WithoutUnblendedLayers (.folder d sub l :: (above ++ over)) (.folder d sub' l :: over')

/-- A pass-through folder that changes nothing of what is in it: visible, at full opacity, without a mask that is on, and not a clipping layer. -/
structure Layer.Transit (f : Layer) : Prop where
  mode : f.folderBlend = ascii "pass"
  opacity : f.opacity = 255
  clipping : f.clipping = 0
  visible : f.flags.toNat / 2 % 2 = 0
  unmasked : ¬f.mask.On

end Psd.Spec
