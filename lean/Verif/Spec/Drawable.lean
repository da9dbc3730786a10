import Verif.Spec.File
import Verif.Spec.Sound

/-
Independent specification: layer records of a file whose channels have planes of a size that can be
allocated, told from the bytes of the file alone.
-/

namespace Psd.Spec

/-- The signed number in big-endian two's complement. -/
def signed (bs : List UInt8) : Int :=
  if 2 * num bs < 256 ^ bs.length then num bs else (num bs : Int) - 256 ^ bs.length

/-- A plane of the given width and height takes at most 2^48 bytes.  In PSB files the row counts of compressed
planes have four bytes, so that the height is limited too. -/
def PlaneFits (psb : Bool) (depth w h : Nat) : Prop :=
  (w * depth + 7) / 8 * h ≤ 2 ^ 48 ∧ (psb = true → h ≤ 65536)

instance (psb : Bool) (depth w h : Nat) : Decidable (PlaneFits psb depth w h) := inferInstanceAs (Decidable (_ ∧ _))

/-- The rectangle at `p` (top, left, bottom, right; 4 bytes each, signed; in any order) fits. -/
def BoxFits (psb : Bool) (depth : Nat) (file : List UInt8) (p : Nat) : Prop :=
  PlaneFits psb depth (signed (field file (p + 12) 4) - signed (field file (p + 4) 4)).natAbs
    (signed (field file (p + 8) 4) - signed (field file p 4)).natAbs

/-- The same for four unsigned numbers. -/
def RealBoxFits (psb : Bool) (depth : Nat) (file : List UInt8) (p : Nat) : Prop :=
  PlaneFits psb depth ((num (field file (p + 12) 4) : Int) - num (field file (p + 4) 4)).natAbs
    ((num (field file (p + 8) 4) : Int) - num (field file p 4)).natAbs

instance (psb : Bool) (depth : Nat) (file : List UInt8) (p : Nat) : Decidable (BoxFits psb depth file p) :=
  inferInstanceAs (Decidable (_ ∧ _))
instance (psb : Bool) (depth : Nat) (file : List UInt8) (p : Nat) : Decidable (RealBoxFits psb depth file p) :=
  inferInstanceAs (Decidable (_ ∧ _))

/-! ### The layer record at a position of the file: rectangle (16 bytes), channel count (2), for each channel its
identifier (2) and length (4; in PSB files 8), blend mode and flags (12), length of the extra data (4) and the extra
data, which starts with the length of the mask data (4) and the mask data. -/

def recChannels (file : List UInt8) (p : Nat) : Nat := num (field file (p + 16) 2)

def recChannelID (psb : Bool) (file : List UInt8) (p j : Nat) : Int :=
  signed (field file (p + 18 + (2 + wide psb) * j) 2)

/-- The place of the length of the extra data. -/
def recExtra (psb : Bool) (file : List UInt8) (p : Nat) : Nat := p + 30 + (2 + wide psb) * recChannels file p

/-- The place of the next record. -/
def recNext (psb : Bool) (file : List UInt8) (p : Nat) : Nat :=
  recExtra psb file p + 4 + num (field file (recExtra psb file p) 4)

/-- Mask parameters: flags 1 (density, 1 byte), 2 (feather, 8 bytes), 4 and 8 (the same for the vector mask). -/
def paramBytes (flags : Nat) : Nat :=
  (if flags % 2 = 1 then 1 else 0) + (if flags / 2 % 2 = 1 then 8 else 0) + (if flags / 4 % 2 = 1 then 1 else 0) +
    (if flags / 8 % 2 = 1 then 8 else 0)

/-- Mask data: length (4), rectangle (16), default colour, flags (bit 4: parameters follow), parameters with
their flags in front, real flags, real background, real rectangle (16).  Place of the real rectangle. -/
def realBoxAt (file : List UInt8) (m : Nat) : Nat :=
  if num (field file (m + 21) 1) / 16 % 2 = 1 then m + 25 + paramBytes (num (field file (m + 22) 1)) else m + 24

/-- Every channel of the record at `p` is one of the colours, the transparency (-1), the mask (-2), the real mask
(-3) or ignored, and its plane fits. -/
def DrawableRecord (psb : Bool) (depth colors : Nat) (file : List UInt8) (p : Nat) : Prop :=
  let m := recExtra psb file p + 4
  let hasMask (n : Nat) : Prop := num (field file (recExtra psb file p) 4) ≠ 0 ∧ n ≤ num (field file m 4)
  BoxFits psb depth file p ∧
  ∀ j ∈ List.range (recChannels file p),
    recChannelID psb file p j < colors ∧
    (recChannelID psb file p j = -2 → hasMask 16 → BoxFits psb depth file (m + 4)) ∧
    (recChannelID psb file p j = -3 → hasMask (realBoxAt file m + 12 - m) → RealBoxFits psb depth file (realBoxAt file m))

instance (psb : Bool) (depth colors : Nat) (file : List UInt8) (p : Nat) :
    Decidable (DrawableRecord psb depth colors file p) := by unfold DrawableRecord; infer_instance

/-- The `n` records from `p` on. -/
def DrawableRecords (psb : Bool) (depth colors : Nat) (file : List UInt8) : Nat → Nat → Prop
  | 0, _ => True
  | n + 1, p => DrawableRecord psb depth colors file p ∧ DrawableRecords psb depth colors file n (recNext psb file p)

instance decDrawableRecords (psb : Bool) (depth colors : Nat) (file : List UInt8) :
    ∀ n p, Decidable (DrawableRecords psb depth colors file n p)
  | 0, _ => isTrue trivial
  | n + 1, p =>
    have := decDrawableRecords psb depth colors file n (recNext psb file p)
    inferInstanceAs (Decidable (_ ∧ _))

/-- The number of records of a layer section: the sign of the count tells something else. -/
def layerCount (raw : Nat) : Nat := if 2 ^ 15 ≤ raw then 2 ^ 16 - raw else raw

/-- The layer section at `q` is empty, or the document is of a kind that has layers and all records are
drawable. -/
def DrawableSection (psb : Bool) (depth : Nat) (mode : Int) (file : List UInt8) (q : Nat) : Prop :=
  num (field file q (wide psb)) = 0 ∨ num (field file (q + wide psb) 2) = 0 ∨
  (LayeredMode mode depth ∧
    DrawableRecords psb depth (modeColors mode) file (layerCount (num (field file (q + wide psb) 2)))
      (q + wide psb + 2))

instance (psb : Bool) (depth : Nat) (mode : Int) (file : List UInt8) (q : Nat) :
    Decidable (DrawableSection psb depth mode file q) := inferInstanceAs (Decidable (_ ∨ _ ∨ _))

/-- A layer section follows a signature and the name of a block for layer sections. -/
def NestedAt (file : List UInt8) (q : Nat) : Prop :=
  8 ≤ q ∧ field file (q - 8) 4 ∈ infoSigs ∧ field file (q - 4) 4 ∈ nestedKeys

instance (file : List UInt8) (q : Nat) : Decidable (NestedAt file q) := inferInstanceAs (Decidable (_ ∧ _ ∧ _))

/-- The section at `start` and all sections in blocks are drawable. -/
def DrawableLayers (psb : Bool) (depth : Nat) (mode : Int) (file : List UInt8) (start : Nat) : Prop :=
  DrawableSection psb depth mode file start ∧ ∀ q, NestedAt file q → DrawableSection psb depth mode file q

/-- Only positions inside the file matter. -/
theorem drawableLayers_of (psb : Bool) (depth : Nat) (mode : Int) (file : List UInt8) (start : Nat)
    (h1 : DrawableSection psb depth mode file start)
    (h2 : ∀ q ∈ List.range (file.length + 8), NestedAt file q → DrawableSection psb depth mode file q) :
    DrawableLayers psb depth mode file start := by
  refine ⟨h1, fun q hq => h2 q (List.mem_range.2 ?_) hq⟩
  by_cases hp : q < file.length + 8
  · exact hp
  · have := hq.2.1
    have e : field file (q - 8) 4 = [] := by unfold field; rw [List.drop_of_length_le (by omega)]; rfl
    rw [e] at this
    exact absurd this (by decide)

end Psd.Spec
