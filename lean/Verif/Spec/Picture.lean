import Verif.Spec.CTree
import Verif.Spec.Paint

/-!
# The layers of a document as a stack to be painted
-/

namespace Psd

/-- The layer is a clipping layer. -/
def LTree.isClipping : LTree LayerRec → Bool
  | .node l _ => l.clipping

/-- `t` is what is seen, at one place, of sibling layers of a document, given from the bottom up: the lowest layer with its attributes, its pixels and its mask there
(`pic` and `mask`, by the layer's number), what it contains, the layers clipped to it, and the others. To a layer that is not a clipping layer are clipped all the clipping layers
right above it, to a clipping layer none. -/
def IsStack {P M : Type} (dec : List UInt8 → Option (List UInt8)) (pic : Int → Option P) (mask : Int → Option M) : List (LTree LayerRec) → Stk P M → Prop
  | layers, .nil => layers = []
  | layers, .layer a p m kids clips rest =>
    ∃ l sub above over, layers = .node l sub :: (above ++ over) ∧ ShowsLayer dec l a ∧ p = pic l.seqID ∧ m = mask l.seqID ∧
      IsStack dec pic mask sub kids ∧ IsStack dec pic mask above clips ∧ IsStack dec pic mask over rest ∧
      (∀ k ∈ above, k.isClipping = true) ∧ (l.clipping = true → above = []) ∧
      (l.clipping = false → ∀ k ∈ over.head?, k.isClipping = false)

/-- The second document is the first without some of its hidden layers: with a layer that is invisible or has opacity 0, and is not a clipping layer itself, goes what it contains and
all that is clipped to it. -/
inductive WithoutHidden : List (LTree LayerRec) → List (LTree LayerRec) → Prop
  | nil : WithoutHidden [] []
  | keep (l : LayerRec) (sub sub' rest rest' : List (LTree LayerRec)) : WithoutHidden sub sub' → WithoutHidden rest rest' →
      WithoutHidden (.node l sub :: rest) (.node l sub' :: rest')
  | drop (l : LayerRec) (sub above over over' : List (LTree LayerRec)) : l.clipping = false → l.visible = false ∨ l.opacity = 0 →
      (∀ k ∈ above, k.isClipping = true) → (∀ k ∈ over.head?, k.isClipping = false) → WithoutHidden over over' →
      WithoutHidden (.node l sub :: (above ++ over)) over'

/-- The second document is the first without some of the layers clipped to layers whose "Blend Clipped Layers as Group" is off. -/
inductive WithoutUnblended : List (LTree LayerRec) → List (LTree LayerRec) → Prop
  | nil : WithoutUnblended [] []
  | keep (l : LayerRec) (sub sub' rest rest' : List (LTree LayerRec)) : WithoutUnblended sub sub' → WithoutUnblended rest rest' →
      WithoutUnblended (.node l sub :: rest) (.node l sub' :: rest')
  | drop (l : LayerRec) (sub sub' above over over' : List (LTree LayerRec)) : l.clipping = false → l.blendClippedElements = false →
      (∀ k ∈ above, k.isClipping = true) → (∀ k ∈ over.head?, k.isClipping = false) → WithoutUnblended sub sub' → WithoutUnblended over over' →
      WithoutUnblended (.node l sub :: (above ++ over)) (.node l sub' :: over')

/-- The second document is the first without its clipping layers. -/
inductive WithoutClipping : List (LTree LayerRec) → List (LTree LayerRec) → Prop
  | nil : WithoutClipping [] []
  | keep (l : LayerRec) (sub sub' rest rest' : List (LTree LayerRec)) : l.clipping = false → WithoutClipping sub sub' → WithoutClipping rest rest' →
      WithoutClipping (.node l sub :: rest) (.node l sub' :: rest')
  | drop (l : LayerRec) (sub rest rest' : List (LTree LayerRec)) : l.clipping = true → WithoutClipping rest rest' → WithoutClipping (.node l sub :: rest) rest'

/-- Folders, and layers that contain others, have no pixels of their own. -/
def FoldersBare {P : Type} (layers : List (LTree LayerRec)) (canvas : Int → Option P) : Prop :=
  ∀ π l kids, docAt layers π = some (.node l kids) → l.folder = true ∨ kids ≠ [] → canvas l.seqID = none

/-- The value of a mask at pixel `i` of a tile, from the tile stored for it: for masks that are black by default the value itself, for masks that are white by default its complement.
Where no tile is stored, the mask has its default colour. -/
def maskValue (defaultColor : Nat) (m : Option (Nat → UInt8)) (i : Nat) : UInt8 :=
  match m with
  | none => if defaultColor = 255 then 255 else 0
  | some m => if defaultColor = 255 then 255 - m i else m i

/-- The layer's mask is in effect: it is not disabled, and has an area. -/
def LayerRec.masked (l : LayerRec) : Prop := l.mask.enabled = true ∧ l.mask.rect.minX < l.mask.rect.maxX ∧ l.mask.rect.minY < l.mask.rect.maxY

/-- Every layer of a document is as in `Q`, or as in `H`, or is in one that is as in `H`, or is clipped to one. -/
inductive AllSeen (H Q : LayerRec → Prop) : List (LTree LayerRec) → Prop
  | nil : AllSeen H Q []
  | hidden (l : LayerRec) (sub above over : List (LTree LayerRec)) : H l → (∀ k ∈ above, k.isClipping = true) → (l.clipping = true → above = []) → AllSeen H Q over →
      AllSeen H Q (.node l sub :: (above ++ over))
  | seen (l : LayerRec) (sub rest : List (LTree LayerRec)) : Q l → AllSeen H Q sub → AllSeen H Q rest → AllSeen H Q (.node l sub :: rest)

/-- The second document is the first with the masks of some layers disabled: of layers without children, as in `W`. -/
inductive MasksOff (W : LayerRec → Prop) : List (LTree LayerRec) → List (LTree LayerRec) → Prop
  | nil : MasksOff W [] []
  | keep (l : LayerRec) (sub sub' rest rest' : List (LTree LayerRec)) : MasksOff W sub sub' → MasksOff W rest rest' → MasksOff W (.node l sub :: rest) (.node l sub' :: rest')
  | off (l : LayerRec) (rest rest' : List (LTree LayerRec)) : W l → MasksOff W rest rest' →
      MasksOff W (.node l [] :: rest) (.node { l with mask := { l.mask with flags := l.mask.flags ||| 2 } } [] :: rest')

/-- Two pixels look the same: they are equal, or both are fully transparent. -/
def Px.Same (p q : Px) : Prop := p = q ∨ p.a = 0 ∧ q.a = 0

/-- Two tiles look the same at pixel `i`. A tile may be missing where the other is fully transparent, unless `strict`. -/
def SeenSame (strict : Bool) (i : Nat) : Option Tile → Option Tile → Prop
  | none, none => True
  | some p, some q => (p i).Same (q i)
  | some p, none => strict = false ∧ (p i).a = 0
  | none, some q => strict = false ∧ (q i).a = 0

/-- Two tiles of masks agree at pixel `i`. -/
def MaskSame (i : Nat) (m m' : Option (Nat → UInt8)) : Prop := m.map (· i) = m'.map (· i)

/-- No folder among the layers of a document is pass-through. -/
def NoPassThrough (layers : List (LTree LayerRec)) : Prop :=
  ∀ π l kids, docAt layers π = some (.node l kids) → l.folder = true → l.sdBlendMode ≠ ascii "pass"

/-- A tile of the picture rendered to, if painting its layers on a blank tile gave `r`, and `old` was there before: the layers, copied into the cache of the whole picture and from
there to the picture, or nothing. -/
def tileShown {P M : Type} (ops : PicOps P M) (old : P) (r : Bool × P) : P := if r.1 then ops.copy (ops.copy r.2) else ops.clear old

end Psd
