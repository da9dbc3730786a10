import Verif.Spec.Bytes

/-
Independent specification of UTF-16 text as PSD stores it.
-/

namespace Psd.Spec

/-- The UTF-16 code units of a character. -/
def utf16 (c : Char) : List Nat :=
  if c.toNat < 0x10000 then [c.toNat]
  else [0xD800 + (c.toNat - 0x10000) / 1024, 0xDC00 + (c.toNat - 0x10000) % 1024]

/-- A PSD unicode string: the number of code units, then the units, big-endian. -/
def uniData (text : List Char) : List UInt8 :=
  be 4 (text.flatMap utf16).length ++ (text.flatMap utf16).flatMap (be 2)

/-- The UTF-8 bytes of a text. -/
def utf8 (text : List Char) : List UInt8 := text.flatMap String.utf8EncodeChar

end Psd.Spec
