import Verif.Spec.Delta

/-
Independent specification of how pictures are stored: bitmaps and colour tables.
(Sample planes: `planeBytes`.)
-/

namespace Psd.Spec

/-- A row of at most eight pixels as a byte: the leftmost pixel is the highest bit, 1 is black, missing
pixels are 0. -/
def packByte (bits : List Bool) : UInt8 :=
  UInt8.ofNat ((List.range 8).map fun k => if bits[k]? = some true then 2 ^ (7 - k) else 0).sum

/-- A row of pixels (true: black): eight pixels per byte. -/
def packRow (bits : List Bool) : List UInt8 :=
  (List.range ((bits.length + 7) / 8)).map fun k => packByte ((bits.drop (8 * k)).take 8)

/-- A bitmap as stored: every row starts with a new byte. -/
def bitmapBytes (rows : List (List Bool)) : List UInt8 := rows.flatMap packRow

/-- A colour table as stored: all red values, all green values, all blue values. -/
def tableBytes (colors : List (UInt8 × UInt8 × UInt8)) : List UInt8 :=
  colors.map (·.1) ++ colors.map (·.2.1) ++ colors.map (·.2.2)

end Psd.Spec
