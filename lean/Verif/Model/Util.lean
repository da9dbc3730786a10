import Verif.Model.Reader

/-
Model of the pure helpers of /repo/util.go: itoa, integer readers and writers, unicode strings.
-/

namespace Psd

/-- util.go:18-22, the digit loop of `itoa`.  `p` is the number of free bytes of the 32-byte
buffer in front of the text written so far (`i = p - 1`); writing with no free byte left is Go's
index panic. -/
def itoaLoop : (p : Nat) → (x : Int) → (acc : List UInt8) → Res (Nat × Int × List UInt8)
  | p, x, acc =>
    if x > 9 then
      match p with
      | 0 => .panic .index
      | p + 1 => itoaLoop p (x / 10) (UInt8.ofNat (x % 10 + 48).toNat :: acc)
    else .ok (p, x, acc)

/-- `byte(x + '0')` for a (possibly negative) int. -/
def byteOf (x : Int) : UInt8 := UInt8.ofNat (x % 256).toNat

/-- util.go:10-29 `itoa`, for a 64-bit `x`; `x = -x` wraps for the least integer. -/
def itoa (x : Int) : Res (List UInt8) := do
  let minus : Bool := x < 0
  let x := if x < 0 then wrap64 (-x) else x
  let (p, x, acc) ← itoaLoop 32 x []
  match p with
  | 0 => .panic .index
  | p + 1 =>
    let acc := byteOf (x + 48) :: acc
    if minus then
      match p with
      | 0 => .panic .index
      | _ + 1 => .ok (45 :: acc)
    else .ok acc

/-- util.go:31-33 `readUint16`. -/
def readUint16 (b : List UInt8) (off : Nat) : Res Nat :=
  if off + 2 ≤ b.length then .ok (beNat ((b.drop off).take 2)) else .panic .index

/-- util.go:40-42 `readUint32`. -/
def readUint32 (b : List UInt8) (off : Nat) : Res Nat :=
  if off + 4 ≤ b.length then .ok (beNat ((b.drop off).take 4)) else .panic .index

/-- Reading an `n`-byte big-endian integer at `off` from a buffer that the caller has just
filled completely (util.go:31-68 `readUint16/32/64/readUint` on a fixed local buffer). -/
def beAt (b : List UInt8) (off n : Nat) : Nat := beNat ((b.drop off).take n)

/-- util.go:35-38 `writeUint16`, util.go:78-83 `writeUint32`: the `n` bytes stored for `v`. -/
def beBytes : (n : Nat) → (v : Nat) → List UInt8
  | 0, _ => []
  | n + 1, v => UInt8.ofNat (v / 256 ^ n % 256) :: beBytes n v

/-- util.go:49-54 `get4or8`. -/
def get4or8 (is64 : Bool) : Nat := if is64 then 8 else 4

/-- `utf16.Decode` of the standard library: surrogate pairs are combined, unpaired surrogates
become U+FFFD. -/
def utf16Decode : List Nat → List Char
  | [] => []
  | u :: us =>
    if 0xD800 ≤ u ∧ u < 0xDC00 then
      match us with
      | v :: vs =>
        if 0xDC00 ≤ v ∧ v < 0xE000 then
          Char.ofNat ((u - 0xD800) * 1024 + (v - 0xDC00) + 0x10000) :: utf16Decode vs
        else Char.ofNat 0xFFFD :: utf16Decode (v :: vs)
      | [] => [Char.ofNat 0xFFFD]
    else if 0xDC00 ≤ u ∧ u < 0xE000 then Char.ofNat 0xFFFD :: utf16Decode us
    else Char.ofNat u :: utf16Decode us

/-- util.go:91-93, the loop filling `buf` in `readUnicodeString`: `n` code units from offset
`4 + 2i`. -/
def readUnits (b : List UInt8) : (n i : Nat) → Res (List Nat)
  | 0, _ => .ok []
  | n + 1, i => do
    let u ← readUint16 b (4 + 2 * i)
    let us ← readUnits b n (i + 1)
    .ok (u :: us)

/-- util.go:85-95 `readUnicodeString`; the Go string is its UTF-8 bytes. -/
def readUnicodeString (b : List UInt8) : Res (List UInt8) := do
  let ln ← readUint32 b 0
  let us ← readUnits b ln 0
  .ok ((utf16Decode us).flatMap String.utf8EncodeChar)

end Psd
