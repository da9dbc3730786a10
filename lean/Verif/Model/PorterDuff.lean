import Verif.Model.Color

/-
Model of blend/zporterduffs.go, generated from blend/genporterduff.go: the arithmetic of one pixel. `Draw` of these
operators passes no mask (zporterduffs.go:36-39 and its eleven copies), so the mask's alpha in the kernels is 0xffff.
-/

namespace Psd

/-- zporterduffs.go:12-25: the twelve operators. -/
inductive PD where
  | clear | copy | dest | srcOver | destOver | srcIn | destIn | srcOut | destOut | srcAtop | destAtop | xor
  deriving DecidableEq, Repr

/-- The alpha of the result (genporterduff.go:64-238, `Alpha16` or `Alpha` with `To16`). -/
def pdAlpha : PD → UInt32 → UInt32 → UInt32
  | .clear, _, _ => 0
  | .copy, s, _ => s
  | .dest, _, d => d
  | .srcOver, s, d => let tmp := 0xffff - s; s + tmp * d / 0xffff
  | .destOver, s, d => let tmp := 0xffff - d; d + tmp * s / 0xffff
  | .srcIn, s, d => d * s / 0xffff
  | .destIn, s, d => d * s / 0xffff
  | .srcOut, s, d => let tmp := 0xffff - d; tmp * s / 0xffff
  | .destOut, s, d => let tmp := 0xffff - s; tmp * d / 0xffff
  | .srcAtop, _, d => d
  | .destAtop, s, _ => s
  | .xor, s, d => (s * (0xffff - d) + d * (0xffff - s)) / 0xffff

/-- One colour channel of the result (genporterduff.go:64-238, `Code16` or `Code` with `To16`): `sa`, `da` are the
alphas, `s`, `d` the premultiplied channels. `tmp` keeps the value the alpha code gave it. -/
def pdChan : PD → UInt32 → UInt32 → UInt32 → UInt32 → UInt32
  | .clear, _, _, _, _ => 0
  | .copy, _, _, s, _ => s
  | .dest, _, _, _, d => d
  | .srcOver, sa, _, s, d => let tmp := 0xffff - sa; s + tmp * d / 0xffff
  | .destOver, _, da, s, d => let tmp := 0xffff - da; d + tmp * s / 0xffff
  | .srcIn, _, da, s, _ => da * s / 0xffff
  | .destIn, sa, _, _, d => sa * d / 0xffff
  | .srcOut, _, da, s, _ => let tmp := 0xffff - da; tmp * s / 0xffff
  | .destOut, sa, _, _, d => let tmp := 0xffff - sa; tmp * d / 0xffff
  | .srcAtop, sa, da, s, d => let tmp := 0xffff - sa; (s * da + d * tmp) / 0xffff
  | .destAtop, sa, da, s, d => let tmp := 0xffff - da; (s * tmp + d * sa) / 0xffff
  | .xor, sa, da, s, d => (s * (0xffff - da) + d * (0xffff - sa)) / 0xffff

/-- genporterduff.go `drawMain2`: the four components of the result. -/
def pdOp (op : PD) (s d : RGBA32) : RGBA32 :=
  ⟨pdChan op s.a d.a s.r d.r, pdChan op s.a d.a s.g d.g, pdChan op s.a d.a s.b d.b, pdAlpha op s.a d.a⟩

/-- genporterduff.go `drawMain1`: the bytes of a pixel widened to 16 bits. -/
def widen (p : Px) : RGBA32 :=
  ⟨p.r.toUInt32 * 0x0101, p.g.toUInt32 * 0x0101, p.b.toUInt32 * 0x0101, p.a.toUInt32 * 0x0101⟩

/-- genporterduff.go `drawMain1`: the source pixel; its alpha is multiplied by the mask's, its colour is not. -/
def widenSrc (alpha : UInt32) (p : Px) : RGBA32 := { widen p with a := p.a.toUInt32 * 0x0101 * alpha / 0xffff }

/-- genporterduff.go `drawMain1_SrcNRGBAToRGBA`, `drawMain1_DestNRGBAToRGBA`. -/
def toPremul (v : RGBA32) : RGBA32 :=
  if v.a = 0 then ⟨0, 0, 0, v.a⟩
  else if v.a < 0xffff then ⟨v.r * v.a / 0xffff, v.g * v.a / 0xffff, v.b * v.a / 0xffff, v.a⟩
  else v

/-- The two kinds of 32-bit image the kernels know. -/
inductive PixKind where
  | rgba | nrgba
  deriving DecidableEq, Repr

/-- The pixel of an image as a premultiplied 16-bit colour. -/
def readPx (k : PixKind) (p : Px) : RGBA32 :=
  match k with
  | .rgba => widen p
  | .nrgba => toPremul (widen p)

/-- `uint8(v >> 8)`. -/
def hi8 (v : UInt32) : UInt8 := (shr v 8).toUInt8

/-- genporterduff.go `drawMain2_SetByRGBA`, `drawMain2_SetByNRGBA`. -/
def storePx (k : PixKind) (v : RGBA32) : Res Px :=
  match k with
  | .rgba => .ok ⟨hi8 v.r, hi8 v.g, hi8 v.b, hi8 v.a⟩
  | .nrgba =>
    if v.a = 0xffff then .ok ⟨hi8 v.r, hi8 v.g, hi8 v.b, hi8 v.a⟩
    else if v.a = 0 then .ok ⟨0, 0, 0, hi8 v.a⟩
    else do
      let b ← divU32 (v.b * 0xffff) v.a
      let g ← divU32 (v.g * 0xffff) v.a
      let r ← divU32 (v.r * 0xffff) v.a
      .ok ⟨hi8 r, hi8 g, hi8 b, hi8 v.a⟩

/-- What a Porter-Duff kernel can be given as a source pixel. -/
inductive PDSrc where
  /-- `draw<Op>{RGBA,NRGBA}To…` -/
  | px (k : PixKind) (p : Px)
  /-- `draw<Op>AlphaTo…`: black with the alpha of the byte. -/
  | alpha (a : UInt8)
  /-- `draw<Op>UniformTo…`: one premultiplied colour (`src.C.RGBA()`). -/
  | uniform (c : RGBA32)
  deriving DecidableEq, Repr

/-- The source colour a kernel computes from `src` (genporterduff.go `drawMain1`, `drawMainAlpha1`, and
zporterduffs.go:128-139 for the uniform source), without a mask. -/
def PDSrc.read : PDSrc → RGBA32
  | .px .rgba p => widenSrc 0xffff p
  | .px .nrgba p => toPremul (widenSrc 0xffff p)
  | .alpha a => ⟨0, 0, 0, a.toUInt32 * 0x0101 * 0xffff / 0xffff⟩
  | .uniform c => c

/-- One pixel drawn by operator `op` onto a pixel `d` of an image of kind `k`: zporterduffs.go:177-482 (Clear) and its
copies starting at 586, 1125, 1688, 2318, 2948, 3505, 4094, 4660, 5258, 5888, 6518. The generated code does not read a
side it does not use; the value it would read does not matter to `pdOp`. -/
def drawPD (op : PD) (k : PixKind) (s : PDSrc) (d : Px) : Res Px := storePx k (pdOp op s.read (readPx k d))

end Psd
