import Verif.Spec.Document
import Verif.Spec.Forest

/-
Independent specification of whole PSD and PSB files: layer sections, the layer and mask
information section, the merged picture.
-/

namespace Psd.Spec

/-! ### Layer pictures -/

/-- Width and height of a rectangle. -/
def Box.width (b : Box) : Nat := (b.right - b.left).toNat
def Box.height (b : Box) : Nat := (b.bottom - b.top).toNat

/-- The rectangle of the user mask and of the real user mask. -/
def MaskSpec.box : MaskSpec → Box
  | .absent => ⟨0, 0, 0, 0⟩
  | .short r _ _ _ _ => r
  | .full r _ _ _ _ _ _ => r
  | .block b => MaskBlock.box b

def MaskSpec.realBox : MaskSpec → Box
  | .absent => ⟨0, 0, 0, 0⟩
  | .short _ _ _ _ _ => ⟨0, 0, 0, 0⟩
  | .full _ _ _ _ _ _ rr => rr
  | .block b => MaskBlock.realBox b

/-- The rectangle a channel covers: -2 is the user mask, -3 the real user mask. -/
def Layer.boxOf (l : Layer) (id : Int) : Box :=
  if id = -2 then l.mask.box else if id = -3 then l.mask.realBox else l.rect

/-- The real user mask is not left of or above the canvas. -/
def Layer.RealMaskOnCanvas (l : Layer) : Prop := 0 ≤ l.mask.realBox.left ∧ 0 ≤ l.mask.realBox.top

instance Layer.decOnCanvas (l : Layer) : Decidable l.RealMaskOnCanvas := inferInstanceAs (Decidable (_ ∧ _))

/-- Every channel has a picture of its rectangle that fits in memory, and colour channels are
numbered below `colors`. -/
def Layer.PicturesValid (psb : Bool) (depth colors : Nat) (l : Layer) : Prop :=
  ∀ c ∈ l.channels,
    c.2.Valid psb depth (l.boxOf c.1).width (l.boxOf c.1).height ∧
    rowLen depth (l.boxOf c.1).width * (l.boxOf c.1).height ≤ 2 ^ 48 ∧ c.1 < colors

instance Layer.decPicturesValid (psb : Bool) (depth colors : Nat) (l : Layer) :
    Decidable (l.PicturesValid psb depth colors) := by
  unfold Layer.PicturesValid; infer_instance

/-- The ZIP pictures of the layer are compressed forms of their planes. -/
def Layer.Inflates (inflate : List UInt8 → Nat → Option (List UInt8)) (l : Layer) : Prop :=
  ∀ c ∈ l.channels, c.2.Inflates inflate

instance Layer.decInflates (inflate : List UInt8 → Nat → Option (List UInt8)) (l : Layer) :
    Decidable (l.Inflates inflate) := by
  unfold Layer.Inflates; infer_instance

/-- The picture of the last channel with the given number. -/
def Layer.lastChannel (l : Layer) (id : Int) : Option Picture :=
  (l.channels.reverse.find? fun c => c.1 = id).map Prod.snd

/-- The section divider type: 0 for ordinary layers. -/
def Layer.kind (l : Layer) : Nat :=
  match l.divider with
  | some d => d.type
  | none => 0

/-! ### Layer sections -/

/-- A layer section: the layers and folders, whether the count is stored negated, and unused bytes
at the end. -/
structure LayerSection where
  forest : List (Node Layer)
  negated : Bool := false
  slack : List UInt8 := []

def LayerSection.layers (s : LayerSection) : List Layer := recordsAll s.forest

def LayerSection.body (psb : Bool) (s : LayerSection) : List UInt8 :=
  be 2 (twos 16 (if s.negated then -(s.layers.length : Int) else s.layers.length)) ++
  s.layers.flatMap (Layer.record psb) ++ s.layers.flatMap (Layer.pictures psb) ++ s.slack

/-- The section with its length field. -/
def LayerSection.bytes (psb : Bool) (s : LayerSection) : List UInt8 :=
  be (wide psb) (s.body psb).length ++ s.body psb

def LayerSection.Valid (psb : Bool) (depth colors : Nat) (s : LayerSection) : Prop :=
  s.layers.length < 2 ^ 15 ∧ WellTypedAll Layer.kind s.forest ∧
  (∀ l ∈ s.layers, l.Valid psb ∧ l.PicturesValid psb depth colors ∧ l.RealMaskOnCanvas) ∧
  (s.body psb).length < 2 ^ (if psb then 62 else 32)

instance LayerSection.decValid (psb : Bool) (depth colors : Nat) (s : LayerSection) :
    Decidable (s.Valid psb depth colors) := by
  unfold LayerSection.Valid; infer_instance

/-! ### The layer and mask information section -/

/-- A block of the document's additional information: an ordinary one, or one that holds a layer
section (16- and 32-bit documents keep their layers there). -/
inductive DocBlock where
  | info (b : InfoBlock)
  | layers (sig key : List UInt8) (s : LayerSection) (pad : List UInt8)

def DocBlock.bytes (psb : Bool) : DocBlock → List UInt8
  | .info b => b.bytes psb
  | .layers sig key s pad => sig ++ key ++ s.bytes psb ++ pad

def DocBlock.Valid (psb : Bool) (depth colors : Nat) : DocBlock → Prop
  | .info b => b.Valid psb
  | .layers sig key s pad => sig ∈ infoSigs ∧ key ∈ nestedKeys ∧ s.Valid psb depth colors ∧
      ∀ x ∈ pad, x ≠ 56

instance DocBlock.decValid (psb : Bool) (depth colors : Nat) (b : DocBlock) :
    Decidable (b.Valid psb depth colors) := by
  cases b <;> unfold DocBlock.Valid <;> infer_instance

def DocBlock.section? : DocBlock → List LayerSection
  | .info _ => []
  | .layers _ _ s _ => [s]

def DocBlock.info? : DocBlock → List InfoBlock
  | .info b => [b]
  | .layers _ _ _ _ => []

/-- What follows the layer section: nothing but unused bytes; the global mask information; or the
global mask information and additional blocks. -/
inductive Trailer where
  | none (slack : List UInt8)
  | mask (global : List UInt8) (slack : List UInt8)
  | blocks (global : List UInt8) (lead : List UInt8) (bs : List DocBlock)

def Trailer.bytes (psb : Bool) : Trailer → List UInt8
  | .none slack => slack
  | .mask g slack => be 4 g.length ++ g ++ slack
  | .blocks g lead bs => be 4 g.length ++ g ++ (lead ++ bs.flatMap (DocBlock.bytes psb))

def Trailer.docBlocks : Trailer → List DocBlock
  | .none _ => []
  | .mask _ _ => []
  | .blocks _ _ bs => bs

def Trailer.Valid (psb : Bool) (depth colors : Nat) : Trailer → Prop
  | .none slack => slack.length < 4
  | .mask g slack => g.length < 2 ^ 32 ∧ slack.length < wide psb
  | .blocks g lead bs => g.length < 2 ^ 32 ∧ (∀ x ∈ lead, x ≠ 56) ∧
      8 ≤ (lead ++ bs.flatMap (DocBlock.bytes psb)).length ∧ ∀ b ∈ bs, b.Valid psb depth colors

instance Trailer.decValid (psb : Bool) (depth colors : Nat) (t : Trailer) :
    Decidable (t.Valid psb depth colors) := by
  cases t <;> unfold Trailer.Valid <;> infer_instance

/-- The section: the main layer section (`none`: an empty one) and what follows. -/
structure LayerMask where
  main : Option LayerSection
  trailer : Trailer

def LayerMask.body (psb : Bool) (m : LayerMask) : List UInt8 :=
  (match m.main with
    | some s => s.bytes psb
    | none => be (wide psb) 0) ++ m.trailer.bytes psb

/-- All layer sections of the document. -/
def LayerMask.sections (m : LayerMask) : List LayerSection :=
  m.main.toList ++ m.trailer.docBlocks.flatMap DocBlock.section?

def LayerMask.infoBlocks (m : LayerMask) : List InfoBlock := m.trailer.docBlocks.flatMap DocBlock.info?

/-- If there is a main layer section, there are no layers in additional blocks. -/
def LayerMask.Valid (psb : Bool) (depth colors : Nat) (m : LayerMask) : Prop :=
  (∀ s ∈ m.main, s.Valid psb depth colors) ∧ m.trailer.Valid psb depth colors ∧
  (m.main.isSome → m.trailer.docBlocks.flatMap DocBlock.section? = []) ∧
  (m.body psb).length < 2 ^ (if psb then 62 else 32)

instance LayerMask.decValid (psb : Bool) (depth colors : Nat) (m : LayerMask) :
    Decidable (m.Valid psb depth colors) := by
  unfold LayerMask.Valid
  refine @instDecidableAnd _ _ inferInstance (@instDecidableAnd _ _ inferInstance
    (@instDecidableAnd _ _ ?_ inferInstance))
  cases h : m.trailer.docBlocks.flatMap DocBlock.section? with
  | nil => exact isTrue fun _ => rfl
  | cons a b =>
    cases hm : m.main with
    | none => exact isTrue fun h => by cases h
    | some s => exact isFalse fun h => by cases h rfl

/-- The section with its length field; it may be missing altogether. -/
def lmBytes (psb : Bool) : Option LayerMask → List UInt8
  | none => be (wide psb) 0
  | some m => be (wide psb) (m.body psb).length ++ m.body psb

/-! ### Documents -/

/-- A document.  The merged picture is one picture of all channels below one another. -/
structure Doc where
  header : Header
  resources : List ResBlock
  layerMask : Option LayerMask
  merged : Picture

def Doc.psb (d : Doc) : Bool := d.header.version = 2

def Doc.bytes (d : Doc) : List UInt8 :=
  d.header.bytes ++ resSection d.resources ++ lmBytes d.psb d.layerMask ++ d.merged.bytes d.psb

def Doc.sections (d : Doc) : List LayerSection :=
  match d.layerMask with
  | none => []
  | some m => m.sections

/-- The layers and folders of the document. -/
def Doc.forest (d : Doc) : List (Node Layer) := d.sections.flatMap LayerSection.forest

def Doc.infoBlocks (d : Doc) : List InfoBlock :=
  match d.layerMask with
  | none => []
  | some m => m.infoBlocks

/-- Colour channels of a colour mode: bitmap, grayscale, indexed, RGB, CMYK. -/
def modeColors (mode : Int) : Nat :=
  if mode = 3 then 3 else if mode = 4 then 4 else 1

/-- The colour modes and depths that have layers: grayscale and RGB with 8, 16 or 32 bits, CMYK with 8 or 16. -/
def LayeredMode (mode : Int) (depth : Nat) : Prop :=
  ((mode = 1 ∨ mode = 3) ∧ depth ∈ [8, 16, 32]) ∨ (mode = 4 ∧ depth ∈ [8, 16])

instance decLayeredMode (mode : Int) (depth : Nat) : Decidable (LayeredMode mode depth) :=
  inferInstanceAs (Decidable (_ ∨ _))

/-- The colour modes of flat documents: also 1-bit bitmaps, and 8-bit indexed pictures with a
256-colour table and a 16-bit transparent index, if any. -/
def FlatMode (d : Doc) : Prop :=
  (d.header.mode = 0 ∧ d.header.depth = 1) ∨
  (d.header.mode = 2 ∧ d.header.depth = 8 ∧ d.header.colorData.length = 768 ∧
    ∀ r ∈ lastBlock d.resources 0x417, 2 ≤ r.data.length)

instance decFlatMode (d : Doc) : Decidable (FlatMode d) := inferInstanceAs (Decidable (_ ∨ _))

/-- The first channel beyond the colour channels is transparency if it is listed as alpha channel 0
(resource 0x41D, a list of 4-byte numbers), or if there is no such list. -/
def Doc.alpha (d : Doc) : Bool :=
  decide (modeColors d.header.mode < d.header.channels) &&
  match lastBlock d.resources 0x41D with
  | none => true
  | some r => decide (∃ i < r.data.length / 4, num (field r.data (4 * i) 4) = 0)

/-- Unused bytes after the picture. -/
def Picture.slack : Picture → List UInt8
  | .raw _ slack => slack
  | .rle _ slack => slack
  | .zip _ _ => []
  | .zipDelta _ _ _ => []

def Doc.Valid (d : Doc) : Prop :=
  d.header.Valid ∧ (∀ r ∈ d.resources, r.Valid) ∧
  (d.resources.flatMap ResBlock.bytes).length < 2 ^ 32 ∧
  (LayeredMode d.header.mode d.header.depth ∨ (FlatMode d ∧ d.sections.flatMap LayerSection.forest = [])) ∧
  modeColors d.header.mode ≤ d.header.channels ∧
  (∀ r ∈ lastBlock d.resources 0x41D, r.data.length % 4 = 0) ∧
  (∀ m ∈ d.layerMask, m.Valid d.psb d.header.depth (modeColors d.header.mode)) ∧
  d.merged.Valid d.psb d.header.depth d.header.width (d.header.height * d.header.channels) ∧
  d.merged.slack = [] ∧ d.merged.isZip = false

/-- The ZIP pictures of the document's layers are compressed forms of their planes. -/
def Doc.Inflates (inflate : List UInt8 → Nat → Option (List UInt8)) (d : Doc) : Prop :=
  ∀ s ∈ d.sections, ∀ l ∈ s.layers, l.Inflates inflate

instance Doc.decInflates (inflate : List UInt8 → Nat → Option (List UInt8)) (d : Doc) :
    Decidable (d.Inflates inflate) := by
  unfold Doc.Inflates; infer_instance

instance decForestNil (l : List (Node Layer)) : Decidable (l = []) :=
  match l with
  | [] => isTrue rfl
  | _ :: _ => isFalse fun h => by cases h

instance Doc.decValid (d : Doc) : Decidable d.Valid := by
  unfold Doc.Valid; infer_instance

end Psd.Spec
