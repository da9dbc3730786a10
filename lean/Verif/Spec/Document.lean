import Verif.Spec.Config
import Verif.Spec.Text
import Verif.Spec.PackBits
import Verif.Spec.Delta
import Verif.Spec.MaskBlock

/-
Independent specification of the layer and mask information section and of whole documents: the
abstract contents and the bytes that represent them, following Adobe's file format document.
-/

namespace Psd.Spec

/-- Size of the length fields that differ between PSD and PSB. -/
def wide (psb : Bool) : Nat := if psb then 8 else 4

/-! ### Rectangles and masks -/

/-- The optional mask parameters: densities are bytes, feathers 8-byte floats (as bit patterns). -/
structure MaskParams where
  userDensity : Option UInt8 := none
  userFeather : Option Nat := none
  vectorDensity : Option UInt8 := none
  vectorFeather : Option Nat := none
  deriving DecidableEq, Repr

def MaskParams.bits (p : MaskParams) : Nat :=
  (if p.userDensity.isSome then 1 else 0) + (if p.userFeather.isSome then 2 else 0) +
  (if p.vectorDensity.isSome then 4 else 0) + (if p.vectorFeather.isSome then 8 else 0)

def MaskParams.bytes (p : MaskParams) : List UInt8 :=
  [UInt8.ofNat p.bits] ++
  (match p.userDensity with | some v => [v] | none => []) ++
  (match p.userFeather with | some v => be 8 v | none => []) ++
  (match p.vectorDensity with | some v => [v] | none => []) ++
  (match p.vectorFeather with | some v => be 8 v | none => [])

def MaskParams.Valid (p : MaskParams) : Prop :=
  (∀ v ∈ p.userFeather, v < 2 ^ 64) ∧ (∀ v ∈ p.vectorFeather, v < 2 ^ 64)

instance MaskParams.decValid (p : MaskParams) : Decidable p.Valid := inferInstanceAs (Decidable (_ ∧ _))

/-- The mask data of a layer: absent; the 20-byte form; the form with parameters (if flag bit 4
is set) and real user mask; or any block, whose meaning depends on its length (`Spec/MaskBlock`). -/
inductive MaskSpec where
  | absent
  | short (rect : Box) (color flags pad1 pad2 : UInt8)
  | full (rect : Box) (color flags : UInt8) (params : Option MaskParams)
      (realFlags realColor : UInt8) (realRect : Box)
  | block (b : List UInt8)
  deriving DecidableEq, Repr

/-- The mask data without its length field. -/
def MaskSpec.body : MaskSpec → List UInt8
  | .absent => []
  | .short r c f p1 p2 => r.bytes ++ [c, f, p1, p2]
  | .full r c f ps rf rc rr =>
    r.bytes ++ [c, f] ++ (match ps with | some p => p.bytes | none => []) ++ [rf, rc] ++ rr.bytes
  | .block b => b

def MaskSpec.bytes (m : MaskSpec) : List UInt8 := be 4 m.body.length ++ m.body

/-- Flag bit 4 announces the parameters. A block may end early, but not go on after its last field. -/
def MaskSpec.Valid : MaskSpec → Prop
  | .absent => True
  | .short r _ f _ _ => r.Valid ∧ f.toNat / 16 % 2 = 0
  | .full r _ f ps _ _ rr => r.Valid ∧ rr.Valid ∧ (f.toNat / 16 % 2 = 1 ↔ ps.isSome = true) ∧
      ∀ p ∈ ps, p.Valid
  | .block b => b.length ≤ MaskBlock.known b ∨ b.length = 20

instance MaskSpec.decValid (m : MaskSpec) : Decidable m.Valid := by
  cases m <;> unfold MaskSpec.Valid <;> infer_instance

/-! ### Additional layer information -/

/-- A block of additional layer information, followed by padding. -/
structure InfoBlock where
  sig : List UInt8
  key : List UInt8
  data : List UInt8
  pad : List UInt8 := []
  deriving DecidableEq, Repr

/-- "8BIM" and "8B64". -/
def infoSigs : List (List UInt8) := [[56, 66, 73, 77], [56, 66, 54, 52]]

/-- Keys whose length is an 8-byte number in PSB files:
LMsk, Lr16, Lr32, Layr, Mt16, Mt32, Mtrn, Alph, FMsk, lnk2, FEid, FXid, PxSD. -/
def wideKeys : List (List UInt8) :=
  ["LMsk", "Lr16", "Lr32", "Layr", "Mt16", "Mt32", "Mtrn", "Alph", "FMsk", "lnk2", "FEid", "FXid",
    "PxSD"].map fun s => s.toList.map fun c => UInt8.ofNat c.toNat

/-- Keys that hold a nested layer info section: Layr, Lr16, Lr32. -/
def nestedKeys : List (List UInt8) :=
  [[76, 97, 121, 114], [76, 114, 49, 54], [76, 114, 51, 50]]

def InfoBlock.lenBytes (psb : Bool) (b : InfoBlock) : Nat :=
  if psb = true ∧ b.key ∈ wideKeys then 8 else 4

def InfoBlock.bytes (psb : Bool) (b : InfoBlock) : List UInt8 :=
  b.sig ++ b.key ++ be (b.lenBytes psb) b.data.length ++ b.data ++ b.pad

/-- Padding must not look like a signature; data must fit its length field and memory. -/
def InfoBlock.Valid (psb : Bool) (b : InfoBlock) : Prop :=
  b.sig ∈ infoSigs ∧ b.key.length = 4 ∧ b.key ∉ nestedKeys ∧ (∀ x ∈ b.pad, x ≠ 56) ∧
  b.data.length < 256 ^ b.lenBytes psb ∧ b.data.length ≤ 2 ^ 48

instance InfoBlock.decValid (psb : Bool) (b : InfoBlock) : Decidable (b.Valid psb) :=
  inferInstanceAs (Decidable (_ ∧ _ ∧ _ ∧ _ ∧ _ ∧ _))

/-- A section of blocks, with padding in front. -/
def infoSection (psb : Bool) (lead : List UInt8) (bs : List InfoBlock) : List UInt8 :=
  lead ++ bs.flatMap (InfoBlock.bytes psb)

/-- The data of the last block with the given key. -/
def lastInfo (bs : List InfoBlock) (key : List UInt8) : Option (List UInt8) :=
  (bs.reverse.find? fun b => b.key = key).map InfoBlock.data

/-! ### Layer records -/

/-- A section divider: type, optionally the blend mode of the folder, optionally a subtype. -/
structure Divider where
  type : Nat
  blend : Option (List UInt8 × Option Nat) := none
  deriving DecidableEq, Repr

def Divider.bytes (d : Divider) : List UInt8 :=
  be 4 d.type ++
  match d.blend with
  | none => []
  | some (bm, none) => [56, 66, 73, 77] ++ bm
  | some (bm, some sub) => [56, 66, 73, 77] ++ bm ++ be 4 sub

def Divider.Valid (d : Divider) : Prop :=
  d.type < 2 ^ 32 ∧ ∀ b ∈ d.blend, b.1.length = 4 ∧ ∀ s ∈ b.2, s < 2 ^ 32

instance Divider.decValid (d : Divider) : Decidable d.Valid := inferInstanceAs (Decidable (_ ∧ _))

/-- The stored picture of a channel; `slack` are unused bytes of the channel's data block.  `zip` is
ZIP without prediction: `packed` is the compressed form of `plane`.  `zipDelta` is ZIP with prediction:
`packed` is the compressed form of the differenced rows, whose samples have `sz` bytes.  What is
compressed to what is said by `Picture.Inflates`. -/
inductive Picture where
  | raw (plane : List UInt8) (slack : List UInt8)
  | rle (rows : List (List Packet)) (slack : List UInt8)
  | zip (packed plane : List UInt8)
  | zipDelta (packed : List UInt8) (sz : Nat) (rows : List (List Nat))
  deriving DecidableEq, Repr

/-- The bytes of the picture, with the compression method in front. -/
def Picture.bytes (psb : Bool) : Picture → List UInt8
  | .raw plane slack => be 2 0 ++ plane ++ slack
  | .rle rows slack => be 2 1 ++ lengthTable (wide psb / 2) (rows.map fun r => (rowBytes r).length) ++
      rows.flatMap rowBytes ++ slack
  | .zip packed _ => be 2 2 ++ packed
  | .zipDelta packed _ _ => be 2 3 ++ packed

/-- The samples. -/
def Picture.plane : Picture → List UInt8
  | .raw plane _ => plane
  | .rle rows _ => rows.flatMap rowMeaning
  | .zip _ plane => plane
  | .zipDelta _ sz rows => planeBytes sz rows

/-- Inflating the packed data of a ZIP picture with `inflate` gives the plane, or its differenced rows. -/
def Picture.Inflates (inflate : List UInt8 → Nat → Option (List UInt8)) : Picture → Prop
  | .raw _ _ => True
  | .rle _ _ => True
  | .zip packed plane => inflate packed plane.length = some plane
  | .zipDelta packed sz rows => inflate packed (planeBytes sz rows).length = some (predicted sz rows)

instance Picture.decInflates (inflate : List UInt8 → Nat → Option (List UInt8)) (p : Picture) :
    Decidable (p.Inflates inflate) := by
  cases p <;> unfold Picture.Inflates <;> infer_instance

/-- The picture is compressed with ZIP. -/
def Picture.isZip : Picture → Bool
  | .raw _ _ => false
  | .rle _ _ => false
  | .zip _ _ => true
  | .zipDelta _ _ _ => true

/-- Bytes of one row of `w` samples. -/
def rowLen (depth w : Nat) : Nat := (w * depth + 7) / 8

/-- The picture has `h` rows of `w` samples; RLE is used with 1- and 8-bit samples only, ZIP with
prediction with 16- and 32-bit samples only. -/
def Picture.Valid (psb : Bool) (depth w h : Nat) : Picture → Prop
  | .raw plane _ => plane.length = rowLen depth w * h
  | .rle rows _ => rows.length = h ∧ (depth = 1 ∨ depth = 8) ∧
      (∀ r ∈ rows, (∀ p ∈ r, p.Valid) ∧ (rowMeaning r).length = rowLen depth w ∧
        (rowBytes r).length < 256 ^ (wide psb / 2)) ∧
      (rows.flatMap rowBytes).length ≤ 2 ^ 48
  | .zip packed plane => packed ≠ [] ∧ plane.length = rowLen depth w * h
  | .zipDelta packed sz rows => packed ≠ [] ∧ (sz = 2 ∨ sz = 4) ∧ depth = 8 * sz ∧ rows.length = h ∧
      ∀ r ∈ rows, r.length = w ∧ ∀ x ∈ r, x < 256 ^ sz

instance Picture.decValid (psb : Bool) (depth w h : Nat) (p : Picture) :
    Decidable (p.Valid psb depth w h) := by
  cases p <;> unfold Picture.Valid <;> infer_instance

/-- A layer record with its channel pictures.  `unicode`, `clbl` and `divider` say what the luni,
clbl and lsct/lsdk blocks among `blocks` mean. -/
structure Layer where
  rect : Box
  channels : List (Int × Picture)
  blend : List UInt8
  opacity : UInt8
  clipping : UInt8
  flags : UInt8
  filler : UInt8 := 0
  mask : MaskSpec
  ranges : List UInt8
  name : List UInt8
  namePad : List UInt8
  lead : List UInt8 := []
  blocks : List InfoBlock
  unicode : Option (List Char)
  clbl : Option Bool
  divider : Option Divider
  deriving DecidableEq, Repr

/-- The extra data of a record, without its length field. -/
def Layer.extra (psb : Bool) (l : Layer) : List UInt8 :=
  l.mask.bytes ++ (be 4 l.ranges.length ++ l.ranges) ++
  ([UInt8.ofNat l.name.length] ++ l.name ++ l.namePad) ++ infoSection psb l.lead l.blocks

/-- The layer record. -/
def Layer.record (psb : Bool) (l : Layer) : List UInt8 :=
  l.rect.bytes ++ be 2 l.channels.length ++
  l.channels.flatMap (fun c => be 2 (twos 16 c.1) ++ be (wide psb) (c.2.bytes psb).length) ++
  [56, 66, 73, 77] ++ l.blend ++ [l.opacity, l.clipping, l.flags, l.filler] ++
  be 4 (l.extra psb).length ++ l.extra psb

/-- The channel pictures of the layer. -/
def Layer.pictures (psb : Bool) (l : Layer) : List UInt8 := l.channels.flatMap fun c => c.2.bytes psb

/-- What the luni, clbl and lsct/lsdk blocks say is what the layer's fields say. -/
def Layer.Consistent (l : Layer) : Prop :=
  (match lastInfo l.blocks [108, 117, 110, 105], l.unicode with       -- luni
    | none, none => True
    | some d, some t => uniData t <+: d ∧ (t.flatMap utf16).length < 2 ^ 32
    | _, _ => False) ∧
  (match lastInfo l.blocks [99, 108, 98, 108], l.clbl with            -- clbl
    | none, none => True
    | some d, some b => d ≠ [] ∧ b = decide (d.head? ≠ some 0)
    | _, _ => False) ∧
  (match lastInfo l.blocks [108, 115, 99, 116], lastInfo l.blocks [108, 115, 100, 107], l.divider with  -- lsct, lsdk
    | none, none, none => True
    | some d, _, some v => d = v.bytes ∧ v.Valid
    | none, some d, some v => d = v.bytes ∧ v.Valid
    | _, _, _ => False)

instance Layer.decConsistent (l : Layer) : Decidable l.Consistent := by
  unfold Layer.Consistent
  refine @instDecidableAnd _ _ ?_ (@instDecidableAnd _ _ ?_ ?_)
  · split <;> infer_instance
  · split <;> infer_instance
  · split <;> infer_instance

/-- Everything about the record except its pictures. -/
def Layer.Valid (psb : Bool) (l : Layer) : Prop :=
  l.rect.Valid ∧ l.channels.length < 2 ^ 16 ∧
  (∀ c ∈ l.channels, -2 ^ 15 ≤ c.1 ∧ c.1 < 2 ^ 15 ∧ (c.2.bytes psb).length < 2 ^ (if psb then 63 else 32)) ∧
  l.blend.length = 4 ∧ l.mask.Valid ∧ l.ranges.length < 2 ^ 32 ∧ l.name.length < 2 ^ 8 ∧
  l.namePad.length < 4 ∧ (1 + l.name.length + l.namePad.length) % 4 = 0 ∧
  (∀ x ∈ l.lead, x ≠ 56) ∧ (∀ b ∈ l.blocks, b.Valid psb) ∧
  (l.extra psb).length < 2 ^ 32 ∧ l.Consistent

instance Layer.decValid (psb : Bool) (l : Layer) : Decidable (l.Valid psb) :=
  inferInstanceAs (Decidable (_ ∧ _ ∧ _ ∧ _ ∧ _ ∧ _ ∧ _ ∧ _ ∧ _ ∧ _ ∧ _ ∧ _ ∧ _))

end Psd.Spec
