/-
Independent specification of big-endian numbers.
-/

namespace Psd.Spec

/-- The `n` bytes of the big-endian representation of `v`. -/
def be (n v : Nat) : List UInt8 :=
  (List.range n).map fun i => UInt8.ofNat (v / 256 ^ (n - 1 - i) % 256)

/-- The number whose big-endian digits are `bs`. -/
def num (bs : List UInt8) : Nat := bs.foldl (fun a b => a * 256 + b.toNat) 0

/-- The bytes `off`, …, `off + n - 1` of `bs`. -/
def field (bs : List UInt8) (off n : Nat) : List UInt8 := (bs.drop off).take n

/-- Two's complement of an integer in `w` bits, as a natural number. -/
def twos (w : Nat) (x : Int) : Nat := (x % (2 ^ w : Int)).toNat

/-- One padding byte if `n` is odd. -/
def evenPad (n : Nat) (pad : UInt8) : List UInt8 := if n % 2 = 1 then [pad] else []

end Psd.Spec
