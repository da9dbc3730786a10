import Verif.Spec.Document

/-
Independent specification: blocks of a file that have room for what they announce.
-/

namespace Psd.Spec

/-- A unicode string block is empty or holds a count and that many 16-bit units. -/
def unicodeRoom (body : List UInt8) : Prop :=
  body = [] ∨ (4 ≤ body.length ∧ 4 + 2 * num (body.take 4) ≤ body.length)

instance (body : List UInt8) : Decidable (unicodeRoom body) := inferInstanceAs (Decidable (_ ∨ _))

/-- The number of bytes of the length of a block: 8 for some names in PSB files, 4 otherwise. -/
def lenWidth (psb : Bool) (key : List UInt8) : Nat := if psb = true ∧ key ∈ wideKeys then 8 else 4

/-- The length that the block at `p` (signature, name, length, contents) announces. -/
def announced (psb : Bool) (file : List UInt8) (p : Nat) : Nat :=
  num (field file (p + 8) (lenWidth psb (field file (p + 4) 4)))

/-- The contents of the block at `p`, as far as the file has them. -/
def contents (psb : Bool) (file : List UInt8) (p : Nat) : List UInt8 :=
  field file (p + 8 + lenWidth psb (field file (p + 4) 4)) (announced psb file p)

/-- Wherever the file contains a signature (8BIM or 8B64), a name and a length, the length is at most 2^48; and if that
many bytes follow and the name is `luni` (unicode layer name), these bytes have room for the name; if the name is
`lsct` or `lsdk` (section divider), there are at least four bytes. -/
def SoundAt (psb : Bool) (file : List UInt8) (p : Nat) : Prop :=
  field file p 4 ∈ infoSigs →
  announced psb file p ≤ 2 ^ 48 ∧
  ((contents psb file p).length = announced psb file p →
    (field file (p + 4) 4 = [0x6C, 0x75, 0x6E, 0x69] → unicodeRoom (contents psb file p)) ∧
    (field file (p + 4) 4 ∈ [[0x6C, 0x73, 0x63, 0x74], [0x6C, 0x73, 0x64, 0x6B]] → 4 ≤ announced psb file p))

instance (psb : Bool) (file : List UInt8) (p : Nat) : Decidable (SoundAt psb file p) := by unfold SoundAt; infer_instance

def SoundBlocks (psb : Bool) (file : List UInt8) : Prop := ∀ p, SoundAt psb file p

/-- Only positions inside the file matter. -/
theorem soundBlocks_of (psb : Bool) (file : List UInt8) (h : ∀ p ∈ List.range file.length, SoundAt psb file p) :
    SoundBlocks psb file := by
  intro p
  by_cases hp : p < file.length
  · exact h p (List.mem_range.2 hp)
  · intro hs
    have : field file p 4 = [] := by unfold field; rw [List.drop_of_length_le (by omega)]; rfl
    rw [this] at hs
    exact absurd hs (by decide)

end Psd.Spec
