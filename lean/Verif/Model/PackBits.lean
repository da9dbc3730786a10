import Verif.Model.Util

/-
Model of the RLE (PackBits) decoder: /repo/compress_other.go, /repo/compress_wasm_js.go and the
GopherJS variant /repo/compress_js.go + /repo/compress.inc.js.
-/

namespace Psd

def errBrokenPackBits : Err := .bad "compressed image data seems broken"

/-- compress_other.go:86-110, the loop over one line of `ln` compressed bytes.  `dest` is the part
of the destination that is still to be written; the result is what was written and what is left.
`copy(dest[:l], buf[i+1:])` copies `min l (len buf - i - 1)` bytes. -/
def pbLine (buf : List UInt8) (ln : Nat) :
    (fuel i : Nat) → (dest : List UInt8) → Res (List UInt8 × List UInt8)
  | fuel, i, dest =>
    if i < ln then
      match fuel with
      | 0 => .fuel
      | fuel + 1 =>
        match buf[i]? with
        | none => .panic .index
        | some b =>
          if b.toNat ≤ 0x7f then
            let l := b.toNat + 1
            if dest.length < l ∨ (ln : Int) - i - 1 < l then .err errBrokenPackBits
            else
              let src := (buf.drop (i + 1)).take l
              let w := src ++ (dest.take l).drop src.length
              match pbLine buf ln fuel (i + (l + 1)) (dest.drop l) with
              | .ok (ws, rest) => .ok (w ++ ws, rest)
              | r => r
          else if b.toNat = 0x80 then pbLine buf ln fuel (i + 1) dest
          else
            -- int(-buf[i]) + 1 with buf[i] a byte
            let l := (256 - b.toNat) + 1
            if dest.length < l ∨ i + 1 ≥ ln then .err errBrokenPackBits
            else
              match buf[i + 1]? with
              | none => .panic .index
              | some c =>
                match pbLine buf ln fuel (i + 2) (dest.drop l) with
                | .ok (ws, rest) => .ok (List.replicate l c ++ ws, rest)
                | r => r
    else .ok ([], dest)

/-- compress_other.go:83-114 (and compress_wasm_js.go:50-81) `decodePackBitsPerLine`: the new
contents of `dest`. -/
def decodePackBitsPerLine : (dest buf : List UInt8) → (lens : List Nat) → Res (List UInt8)
  | dest, _, [] => .ok dest
  | dest, buf, ln :: lens => do
    let (w, rest) ← pbLine buf ln ln 0 dest
    let buf' ← goSlice buf ln buf.length
    let d ← decodePackBitsPerLine rest buf' lens
    .ok (w ++ d)

/-- compress_other.go:48-51: the number of goroutines used for `lines` rows. -/
def workers (lines : Nat) : (n : Nat) → Nat
  | 0 => 0
  | n + 1 => if n + 1 > 1 ∧ 2 * (n + 1) > lines then workers lines n else n + 1

/-- compress_other.go:25-40: the `offsets` table. -/
def offsetsFrom : (total : Nat) → (lens : List Nat) → List Nat
  | _, [] => []
  | t, l :: ls => t :: offsetsFrom (t + l) ls

/-- The arguments of one worker: destination slice, compressed bytes, row lengths. -/
structure PBTask where
  dest : List UInt8
  buf : List UInt8
  lens : List Nat
  deriving DecidableEq, Repr

/-- compress_other.go:60-72: the slices handed to the workers; `k` is the number of workers
still to be launched before the last one. -/
def pbTasks (dest buf : List UInt8) (lens offsets : List Nat) (width step : Nat) :
    (k ofs : Nat) → Res (List PBTask)
  | 0, ofs => do
    let d ← goSlice dest (ofs * width) dest.length
    let o ← goIndex offsets ofs
    let b ← goSlice buf o buf.length
    let ls ← goSlice lens ofs lens.length
    .ok [⟨d, b, ls⟩]
  | k + 1, ofs => do
    let d ← goSlice dest (ofs * width) ((ofs + step) * width)
    let o ← goIndex offsets ofs
    let o' ← goIndex offsets (ofs + step)
    let b ← goSlice buf o o'
    let ls ← goSlice lens ofs (ofs + step)
    let ts ← pbTasks dest buf lens offsets width step k (ofs + step)
    .ok (⟨d, b, ls⟩ :: ts)

/-- Wait for all workers and combine: a panic of any worker is a panic of the program, else the
error of the lowest-numbered failing worker (compress_other.go:74-79), else the written slices,
which together make up the destination. -/
def pbJoin : List (Res (List UInt8)) → Res (List UInt8)
  | [] => .ok []
  | r :: rs =>
    match r, pbJoin rs with
    | .panic p, _ => .panic p
    | _, .panic p => .panic p
    | .fuel, _ => .fuel
    | _, .fuel => .fuel
    | .err e, _ => .err e
    | .ok _, .err e => .err e
    | .ok d, .ok ds => .ok (d ++ ds)

/-- compress_other.go:48-80: decode `buf` into `dest` with `GOMAXPROCS = procs`. -/
def packBitsRows (procs : Nat) (dest buf : List UInt8) (lens : List Nat) (width : Nat) :
    Res (List UInt8) :=
  let lines := lens.length
  let n := workers lines procs
  if n = 1 then decodePackBitsPerLine dest buf lens
  else
    -- step := lines / n, which divides by zero for n = 0 (GOMAXPROCS is never 0)
    if n = 0 then .panic .divZero
    else do
      let tasks ← pbTasks dest buf lens (offsetsFrom 0 lens) width (lines / n) (n - 1) 0
      pbJoin (tasks.map fun t => decodePackBitsPerLine t.dest t.buf t.lens)

/-- The row lengths stored in the table `tbl` of `n` entries of `sz` bytes each
(compress_other.go:24-40). -/
def pbLens (sz : Nat) : (n : Nat) → (tbl : List UInt8) → List Nat
  | 0, _ => []
  | n + 1, tbl => beNat (tbl.take sz) :: pbLens sz n (tbl.drop sz)

/-- compress_other.go:12-81 `decodePackBits`: new contents of `dest` and bytes read. -/
def decodePackBits (procs : Nat) (dest : List UInt8) (width lines : Nat) (large : Bool) :
    P (List UInt8 × Int) := do
  let sz := get4or8 large / 2
  let tbl ← readFull (lines * sz)
  let lens := pbLens sz lines tbl
  let total ← P.lift (goMake (wrap64 (lens.sum : Int)))
  let buf ← readFull total
  let d ← P.lift (packBitsRows procs dest buf lens width)
  pure (d, (tbl.length : Int) + buf.length)

/-- compress_wasm_js.go:40-47: the wasm build decodes all rows in one goroutine. -/
def packBitsRowsWasm (dest buf : List UInt8) (lens : List Nat) : Res (List UInt8) :=
  decodePackBitsPerLine dest buf lens

/-- compress.inc.js:21-47, the loop over one line.  `buf` is the compressed data from `ofs` on;
`j` counts the compressed bytes of the line.  A no-op byte advances `ofs` but not `j`.  Reading a
JavaScript array past its end yields `undefined`, for which both comparisons are false, so the
run branch is taken with a length that is NaN: `dest.length < NaN` is false, the loop `k < NaN`
writes nothing.  `none` as a result models `return false`. -/
def jsLine (ln : Nat) :
    (fuel j : Nat) → (buf dest : List UInt8) → Res (Option (List UInt8 × List UInt8 × List UInt8))
  | fuel, j, buf, dest =>
    if j < ln then
      match fuel with
      | 0 => .fuel
      | fuel + 1 =>
        match buf with
        | [] =>
          if j + 1 ≥ ln then .ok none
          else jsLine ln fuel (j + 2) [] dest
        | b :: bs =>
          if b.toNat ≤ 0x7f then
            let l := b.toNat + 1
            if dest.length < l ∨ (ln : Int) - j - 1 < l then .ok none
            else
              -- `dest[d++] = buf[ofs++]`; undefined is stored as 0 in a typed array
              let src := bs.take l ++ List.replicate (l - bs.length) 0
              match jsLine ln fuel (j + (l + 1)) (bs.drop l) (dest.drop l) with
              | .ok (some (ws, buf', rest)) => .ok (some (src ++ ws, buf', rest))
              | r => r
          else if b.toNat = 0x80 then jsLine ln fuel j bs dest
          else
            let l := 256 - b.toNat + 1
            if dest.length < l ∨ j + 1 ≥ ln then .ok none
            else
              let c := bs.headD 0
              match jsLine ln fuel (j + 2) (bs.drop 1) (dest.drop l) with
              | .ok (some (ws, buf', rest)) => .ok (some (List.replicate l c ++ ws, buf', rest))
              | r => r
    else .ok (some ([], buf, dest))

/-- compress.inc.js:16-48 `decodePackBits`; `.err` models the error that compress_js.go:36-38
returns when the result is false.  The fuel covers one step per compressed byte left and per
byte of the declared line. -/
def packBitsRowsJS : (dest buf : List UInt8) → (lens : List Nat) → Res (List UInt8)
  | dest, _, [] => .ok dest
  | dest, buf, ln :: lens =>
    match jsLine ln (ln + buf.length) 0 buf dest with
    | .ok (some (w, buf', rest)) => do
      let d ← packBitsRowsJS rest buf' lens
      .ok (w ++ d)
    | .ok none => .err (.bad "error occurred in decodePackBits")
    | .err e => .err e
    | .panic p => .panic p
    | .fuel => .fuel

end Psd
