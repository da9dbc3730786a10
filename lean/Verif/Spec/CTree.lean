import Verif.Model.CTree

/-!
# What a layer tree should look like

Layers are named by paths: `[]` is the root, `π ++ [i]` the `i`-th child from the bottom of the layer at `π`.
-/

namespace Psd

/-- The layer found from `p` by following `Children` along a path. -/
def slotAt (h : CHeap) : Ptr → List Nat → Option Ptr
  | p, [] => some p
  | p, i :: π => if i < (h.at_ p).children.len then slotAt h ((h.at_ p).children.arr, i) π else none

/-- Among siblings of which `clipping` tells whether they are clipping layers, `b` is the layer that `j` is clipped to: `b` is not
a clipping layer itself, and everything from above `b` up to `j` is. -/
def IsBase (clipping : Nat → Bool) (b j : Nat) : Prop :=
  b < j ∧ clipping b = false ∧ ∀ k, k ≤ j → b < k → clipping k = true

instance (c : Nat → Bool) (b j : Nat) : Decidable (IsBase c b j) := by unfold IsBase; infer_instance

/-- The layers `0 … n-1` of an array have the clipping links they should: every layer with a base is clipped by it and every other
by nothing, and every layer lists the layers based on it, bottom to top. -/
def ClippingOk (h : CHeap) (arr n : Nat) : Prop :=
  ∀ j, j < n →
    (∀ b, IsBase (fun k => (h.at_ (arr, k)).attr.clipping) b j → (h.at_ (arr, j)).clippedBy = some (arr, b)) ∧
    ((∀ b, ¬IsBase (fun k => (h.at_ (arr, k)).attr.clipping) b j) → (h.at_ (arr, j)).clippedBy = none) ∧
    (h.at_ (arr, j)).clip =
      ((List.range n).filter fun k => decide (IsBase (fun k => (h.at_ (arr, k)).attr.clipping) j k)).map fun k => some (arr, k)

/-- No two layers of the tree at `p` have the same number. -/
def UniqueIDs (h : CHeap) (p : Ptr) : Prop :=
  ∀ π π' q q', slotAt h p π = some q → slotAt h p π' = some q' → (h.at_ q).attr.seqID = (h.at_ q').attr.seqID → π = π'

/-- The clipping links of the tree at `p` lead into the tree. -/
def LinksInside (h : CHeap) (p : Ptr) : Prop :=
  ∀ π q, slotAt h p π = some q →
    (∀ c ∈ (h.at_ q).clip, ∃ ρ r, c = some r ∧ slotAt h p ρ = some r) ∧ (∀ b, (h.at_ q).clippedBy = some b → ∃ ρ, slotAt h p ρ = some b)

/-- `a` is what the tree should show of a layer `l` of a document. `decode` decodes names that are not Unicode; `none` is an error. -/
structure ShowsLayer (decode : List UInt8 → Option (List UInt8)) (l : LayerRec) (a : CAttr) : Prop where
  number : a.seqID = l.seqID
  /-- the Unicode name is preferred -/
  unicodeName : l.unicodeName ≠ [] → a.name = l.unicodeName
  otherName : l.unicodeName = [] → l.mbcsName ≠ [] → ∀ n, decode l.mbcsName = some n → a.name = n
  /-- a name that cannot be decoded is kept as it is -/
  rawName : l.unicodeName = [] → l.mbcsName ≠ [] → decode l.mbcsName = none → a.name = l.mbcsName
  noName : l.unicodeName = [] → l.mbcsName = [] → a.name = []
  folder : a.folder = l.folder
  folderOpen : a.folderOpen = l.folderIsOpen
  visible : a.visible = l.visible
  opacity : a.opacity = l.opacity.toNat
  clipping : a.clipping = l.clipping
  blendClipped : a.blendClippedElements = l.blendClippedElements
  /-- a folder has the blend mode of its section divider -/
  folderMode : l.folder = true → a.blendMode = l.sdBlendMode
  layerMode : l.folder = false → l.blendMode ≠ ascii "pass" → a.blendMode = l.blendMode
  /-- only folders can be pass-through -/
  noPass : l.folder = false → l.blendMode = ascii "pass" → a.blendMode = ascii "norm"
  /-- a mask counts only if it has an area -/
  mask : a.maskEnabled = true ↔ l.mask.enabled = true ∧ l.mask.rect.minX < l.mask.rect.maxX ∧ l.mask.rect.minY < l.mask.rect.maxY
  maskDefault : a.maskDefaultColor = l.mask.defaultColor

/-! How deeply layers are nested. -/
mutual

def LTree.depth {α : Type} : LTree α → Nat
  | .node _ kids => depthAll kids + 1

def depthAll {α : Type} : List (LTree α) → Nat
  | [] => 0
  | k :: ks => max k.depth (depthAll ks)

end

/-- The subtree at a path. -/
def LTree.sub {α : Type} : LTree α → List Nat → Option (LTree α)
  | t, [] => some t
  | .node _ kids, i :: π => match kids[i]? with
    | some k => k.sub π
    | none => none

/-- The layer of a document at a path, with what is in it; the document itself is no layer. -/
def docAt {α : Type} : List (LTree α) → List Nat → Option (LTree α)
  | _, [] => none
  | ls, i :: π => match ls[i]? with
    | some k => k.sub π
    | none => none

end Psd
