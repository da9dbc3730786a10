import Verif.Spec.Bytes

/-
Independent specification of the file header, the colour mode data section and the image resources
section of PSD and PSB files.
-/

namespace Psd.Spec

/-- An image resource block as it stands in a file.  `pad1` and `pad2` are the bytes that pad name
and data to even lengths. -/
structure ResBlock where
  sig : List UInt8
  id : Nat
  name : List UInt8
  data : List UInt8
  pad1 : UInt8 := 0
  pad2 : UInt8 := 0
  deriving DecidableEq, Repr

/-- The signatures in use: 8BIM, MeSa, PHUT, AgHg, DCSR. -/
def resSigs : List (List UInt8) :=
  [[56, 66, 73, 77], [77, 101, 83, 97], [80, 72, 85, 84], [65, 103, 72, 103], [68, 67, 83, 82]]

/-- The block can be written down. -/
def ResBlock.Valid (r : ResBlock) : Prop :=
  r.sig ∈ resSigs ∧ r.id < 2 ^ 16 ∧ r.name.length < 2 ^ 8 ∧ r.data.length < 2 ^ 32

instance ResBlock.decValid (r : ResBlock) : Decidable r.Valid := inferInstanceAs (Decidable (_ ∧ _ ∧ _ ∧ _))

/-- The block's bytes. -/
def ResBlock.bytes (r : ResBlock) : List UInt8 :=
  r.sig ++ be 2 r.id ++ [UInt8.ofNat r.name.length] ++ r.name ++ evenPad (r.name.length + 1) r.pad1 ++
  be 4 r.data.length ++ r.data ++ evenPad r.data.length r.pad2

/-- The last block with the given ID. -/
def lastBlock (rs : List ResBlock) (id : Nat) : Option ResBlock := rs.reverse.find? fun r => r.id = id

/-- A file header with colour mode data. `mode` is the signed 16-bit colour mode; `reserved` are the
six bytes the format ignores. -/
structure Header where
  version : Nat
  channels : Nat
  height : Nat
  width : Nat
  depth : Nat
  mode : Int
  colorData : List UInt8
  reserved : List UInt8 := [0, 0, 0, 0, 0, 0]
  deriving DecidableEq, Repr

/-- The largest side of a picture: 30000 for PSD, 300000 for PSB. -/
def maxSide (version : Nat) : Nat := if version = 1 then 30000 else 300000

/-- What the file format allows. -/
def Header.Valid (h : Header) : Prop :=
  (h.version = 1 ∨ h.version = 2) ∧ (1 ≤ h.channels ∧ h.channels ≤ 56) ∧
  (1 ≤ h.height ∧ h.height ≤ maxSide h.version) ∧ (1 ≤ h.width ∧ h.width ≤ maxSide h.version) ∧
  h.depth ∈ [1, 8, 16, 32] ∧ (-2 ^ 15 ≤ h.mode ∧ h.mode < 2 ^ 15) ∧
  h.colorData.length < 2 ^ 32 ∧ h.reserved.length = 6

instance Header.decValid (h : Header) : Decidable h.Valid :=
  inferInstanceAs (Decidable (_ ∧ _ ∧ _ ∧ _ ∧ _ ∧ _ ∧ _ ∧ _))

/-- The header's bytes, with the colour mode data section. -/
def Header.bytes (h : Header) : List UInt8 :=
  [56, 66, 80, 83] ++ be 2 h.version ++ h.reserved ++ be 2 h.channels ++ be 4 h.height ++
  be 4 h.width ++ be 2 h.depth ++ be 2 (twos 16 h.mode) ++ be 4 h.colorData.length ++ h.colorData

/-- The image resources section. -/
def resSection (rs : List ResBlock) : List UInt8 :=
  let body := rs.flatMap ResBlock.bytes
  be 4 body.length ++ body

/-- Does `data` start with a header a reader may accept?  Signature at 0, version at 4, channels at
12, height at 14, width at 18, depth at 22. -/
def headerAcceptable (data : List UInt8) : Prop :=
  26 ≤ data.length ∧ field data 0 4 = [56, 66, 80, 83] ∧
  (num (field data 4 2) = 1 ∨ num (field data 4 2) = 2) ∧
  (1 ≤ num (field data 12 2) ∧ num (field data 12 2) ≤ 56) ∧
  (1 ≤ num (field data 14 4) ∧ num (field data 14 4) ≤ maxSide (num (field data 4 2))) ∧
  (1 ≤ num (field data 18 4) ∧ num (field data 18 4) ≤ maxSide (num (field data 4 2))) ∧
  num (field data 22 2) ∈ [1, 8, 16, 32]

instance decHeaderAcceptable (d : List UInt8) : Decidable (headerAcceptable d) :=
  inferInstanceAs (Decidable (_ ∧ _ ∧ _ ∧ _ ∧ _ ∧ _ ∧ _))

end Psd.Spec
