import Verif.Model.PackBits

/-
Model of /repo/compress.go.
-/

namespace Psd

/-- The environment of a decode: the machine (GOMAXPROCS) and the standard library's inflate,
which stays abstract.  `inflate window want` is the result of reading `want` bytes from
`zlib.NewReader` over `window` (`none`: an error); `pulled window want sched` is how many bytes of
`window` were read from the underlying reader meanwhile, which may depend on the reader's
chunking. -/
structure Env where
  procs : Nat
  inflate : (window : List UInt8) → (want : Nat) → Option (List UInt8)
  pulled : (window : List UInt8) → (want : Nat) → (sched : List Nat) → Nat

/-- compress.go:77-100 `decodeDelta`, the inner loop over one row of `w` samples of `sz` bytes,
with running sum `d`; result: the rewritten row and the rest of the buffer. -/
def deltaRow (sz : Nat) : (w d : Nat) → (buf : List UInt8) → Res (List UInt8 × List UInt8)
  | 0, _, buf => .ok ([], buf)
  | w + 1, d, buf =>
    if buf.length < sz then .panic .index
    else
      let d' := (d + beNat (buf.take sz)) % 256 ^ sz
      match deltaRow sz w d' (buf.drop sz) with
      | .ok (row, rest) => .ok (beBytes sz d' ++ row, rest)
      | r => r

/-- compress.go:81-88 / 91-98, the outer loop over rows. -/
def deltaRows (sz width : Nat) : (fuel : Nat) → (buf : List UInt8) → Res (List UInt8)
  | _, [] => .ok []
  | 0, _ :: _ => .fuel
  | fuel + 1, buf => do
    let (row, rest) ← deltaRow sz width 0 buf
    let rows ← deltaRows sz width fuel rest
    .ok (row ++ rows)

/-- compress.go:77-100 `decodeDelta`: 16- and 32-bit rows are summed up, other depths are left
unchanged. -/
def decodeDelta (buf : List UInt8) (width depth : Nat) : Res (List UInt8) :=
  if depth = 16 then deltaRows 2 width buf.length buf
  else if depth = 32 then deltaRows 4 width buf.length buf
  else .ok buf

/-- compress.go:57-75 `decodeZLIB`: `want` bytes, read through a reader limited to `length` bytes
(0 means no limit).  Returns the bytes and how far the underlying reader advanced.  `io.ReadFull`
guarantees the wanted number of bytes and `io.LimitedReader` the limit, so the abstract functions
need not be trusted for either; the rest of the schedule is kept (simplification). -/
def decodeZLIB (env : Env) (want : Nat) (length : Int) : P (List UInt8 × Int) := fun s =>
  let limit : Nat := if length = 0 then 2 ^ 63 - 1 else length.toNat
  let window := s.avail.take limit
  match env.inflate window want with
  | none => .err .zlib
  | some out =>
    if out.length = want then
      let n := min (env.pulled window want s.sched) window.length
      .ok ((out, (n : Int)), { s with pos := s.pos + n })
    else .err .zlib

/-- compress.go:30-52 `CompressionMethod.Decode`: new contents of `dest` and bytes read.
`method` is the value of the `int16`. -/
def cmDecode (env : Env) (method : Int) (dest : List UInt8) (sizeHint : Int) (rect : Rect)
    (depth channels : Nat) (large : Bool) : P (List UInt8 × Int) :=
  if method = 0 then do
    let d ← readFull dest.length
    pure (d, (d.length : Int))
  else if method = 1 then
    let width := if depth = 1 then (rect.dx.toNat + 7) / 8 else rect.dx.toNat
    decodePackBits env.procs dest width (rect.dy.toNat * channels) large
  else if method = 2 then decodeZLIB env dest.length sizeHint
  else if method = 3 then do
    let (d, read) ← decodeZLIB env dest.length sizeHint
    let d' ← P.lift (decodeDelta d rect.dx.toNat depth)
    pure (d', read)
  else P.fail (.bad "compression method is not implemented")

end Psd
