import Verif.Spec.Bytes

/-!
# Specification: rectangles, and the mask data of a layer by the length of the block

Adobe's description of the mask data: a rectangle (16 bytes: top, left, bottom, right), the default
colour (1 byte), flags (1 byte); if bit 4 of the flags is set, a byte of parameter bits followed by the
user mask density (bit 0, 1 byte), the user mask feather (bit 1, 8 bytes), the vector mask density (bit 2,
1 byte) and the vector mask feather (bit 3, 8 bytes); then, unless the block has exactly 20 bytes, the real
flags (1 byte), the real background (1 byte) and the real rectangle (16 bytes).  A block may end
anywhere: then the fields it does not hold in full are absent.
-/

namespace Psd.Spec

/-- A rectangle by its edges. -/
structure Box where
  top : Int
  left : Int
  bottom : Int
  right : Int
  deriving DecidableEq, Repr

/-- Top, left, bottom, right as signed 32-bit numbers. -/
def Box.bytes (b : Box) : List UInt8 :=
  be 4 (twos 32 b.top) ++ be 4 (twos 32 b.left) ++ be 4 (twos 32 b.bottom) ++ be 4 (twos 32 b.right)

/-- Coordinates are 32-bit and the edges are in order. -/
def Box.Valid (b : Box) : Prop :=
  (-2 ^ 31 ≤ b.top ∧ b.top ≤ b.bottom ∧ b.bottom < 2 ^ 31) ∧
  (-2 ^ 31 ≤ b.left ∧ b.left ≤ b.right ∧ b.right < 2 ^ 31)

instance Box.decValid (b : Box) : Decidable b.Valid := inferInstanceAs (Decidable (_ ∧ _))

namespace MaskBlock

/-- The number in the `n` bytes at offset `i`, if the block holds them. -/
def value (b : List UInt8) (i n : Nat) : Option Nat :=
  if i + n ≤ b.length then some (num (field b i n)) else none

/-- Bit `i` of a number. -/
def bit (n i : Nat) : Bool := n / 2 ^ i % 2 == 1

/-- A 32-bit two's complement number. -/
def signed (n : Nat) : Int := if n < 2 ^ 31 then n else (n : Int) - 2 ^ 32

/-- The rectangle at offset `i`, the edges in either order. -/
def boxAt (b : List UInt8) (i : Nat) : Box :=
  match value b i 4, value b (i + 4) 4, value b (i + 8) 4, value b (i + 12) 4 with
  | some y0, some x0, some y1, some x1 =>
    ⟨min (signed y0) (signed y1), min (signed x0) (signed x1), max (signed y0) (signed y1),
      max (signed x0) (signed x1)⟩
  | _, _, _, _ => ⟨0, 0, 0, 0⟩

/-- The rectangle, the default colour and the flags of the mask. -/
def box (b : List UInt8) : Box := boxAt b 0
def color (b : List UInt8) : Nat := (value b 16 1).getD 0
def flags (b : List UInt8) : Nat := (value b 17 1).getD 0

/-- The parameter bits, if there are parameters. -/
def params (b : List UInt8) : Nat := if bit (flags b) 4 then (value b 18 1).getD 0 else 0

/-- Where the parameters are. -/
def userDensityAt (b : List UInt8) : Nat := if bit (flags b) 4 then 19 else 18
def userFeatherAt (b : List UInt8) : Nat := userDensityAt b + if bit (params b) 0 then 1 else 0
def vectorDensityAt (b : List UInt8) : Nat := userFeatherAt b + if bit (params b) 1 then 8 else 0
def vectorFeatherAt (b : List UInt8) : Nat := vectorDensityAt b + if bit (params b) 2 then 1 else 0

/-- Where the real user mask is. -/
def realAt (b : List UInt8) : Nat := vectorFeatherAt b + if bit (params b) 3 then 8 else 0

/-- Densities are 255 unless given, if there are flags at all; feathers are 0 unless given. -/
def userDensity (b : List UInt8) : Nat :=
  if b.length < 18 then 0 else (if bit (params b) 0 then value b (userDensityAt b) 1 else none).getD 255
def userFeather (b : List UInt8) : Nat := (if bit (params b) 1 then value b (userFeatherAt b) 8 else none).getD 0
def vectorDensity (b : List UInt8) : Nat :=
  if b.length < 18 then 0 else (if bit (params b) 2 then value b (vectorDensityAt b) 1 else none).getD 255
def vectorFeather (b : List UInt8) : Nat := (if bit (params b) 3 then value b (vectorFeatherAt b) 8 else none).getD 0

/-- The real user mask. -/
def realFlags (b : List UInt8) : Nat := if b.length = 20 then 0 else (value b (realAt b) 1).getD 0
def realColor (b : List UInt8) : Nat := if b.length = 20 then 0 else (value b (realAt b + 1) 1).getD 0
def realBox (b : List UInt8) : Box := if b.length = 20 then ⟨0, 0, 0, 0⟩ else boxAt b (realAt b + 2)

/-- The length of the fields the block may have. -/
def known (b : List UInt8) : Nat := realAt b + 18

end MaskBlock

end Psd.Spec
