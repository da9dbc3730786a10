import Verif.Model.Tiles
import Verif.Model.PorterDuff

/-!
# Storing layer pictures and masks as tiles

The two functions of /repo/composite/layerimage.go that cut a picture or a mask into tiles, and the part of the renderer
that applies a tiled mask. Coordinates are unbounded integers. Cancellation is left out (see `Verif.Model.Conc`).
-/

namespace Psd

/-- `s[i]`. -/
def byteAt (l : List UInt8) (i : Int) : Res UInt8 :=
  if i < 0 then .panic .index
  else match l[i.toNat]? with
    | some v => .ok v
    | none => .panic .index

/-- `buf[i+3] = …; …; buf[i] = …`. What is written before a panic does not matter. -/
def putAt (buf : List UInt8) (i : Int) (px : List UInt8) : Res (List UInt8) :=
  if i < 0 ∨ (buf.length : Int) < i + px.length then .panic .index
  else .ok (buf.take i.toNat ++ px ++ buf.drop (i.toNat + px.length))

/-- layerimage.go:297-303 and 311-315: what is stored for the pixel whose bytes are at `sx`, if anything; `a` is nil if the
layer has no alpha channel. -/
def imageCell (r g b : List UInt8) (a : Option (List UInt8)) (sx : Int) : Res (Option (List UInt8)) :=
  match a with
  | some a => do
    let va ← byteAt a sx
    if va > 0 then
      let vb ← byteAt b sx
      let vg ← byteAt g sx
      let vr ← byteAt r sx
      .ok (some [vr, vg, vb, va])
    else .ok none
  | none => do
    let vb ← byteAt b sx
    let vg ← byteAt g sx
    let vr ← byteAt r sx
    .ok (some [vr, vg, vb, 0xff])

/-- layerimage.go:488-492 and 500-504. -/
def maskCell (a : List UInt8) (default : UInt8) (sx : Int) : Res (Option (List UInt8)) := do
  let alpha ← byteAt a sx
  if default = 0 then (if alpha ≠ 0 then .ok (some [alpha]) else .ok none)
  else (if alpha ≠ 255 then .ok (some [255 - alpha]) else .ok none)

/-- layerimage.go:296-305, 310-317 (with `k = 4` bytes a pixel) and 487-494, 499-506 (`k = 1`): one row, `n` pixels. -/
def tileCols (k dX : Nat) (cell : Int → Res (Option (List UInt8))) : (n : Nat) → (dx sx : Int) → List UInt8 × Bool →
    Res (List UInt8 × Bool)
  | 0, _, _, st => .ok st
  | n + 1, dx, sx, st => do
    match ← cell sx with
    | some px =>
      let buf ← putAt st.1 dx px
      tileCols k dX cell n (dx + k) (sx + dX) (buf, true)
    | none => tileCols k dX cell n (dx + k) (sx + dX) st

/-- layerimage.go:295-307, 309-319, 486-496, 498-508: `n` rows of `w` pixels. -/
def tileRows (k dX : Nat) (cell : Int → Res (Option (List UInt8))) (w : Nat) (dxMin sxMin tw sw : Int) : (n : Nat) → (dy sy : Int) →
    List UInt8 × Bool → Res (List UInt8 × Bool)
  | 0, _, _, st => .ok st
  | n + 1, dy, sy, st => do
    let st ← tileCols k dX cell w (dy + dxMin) (sy + sxMin) st
    tileRows k dX cell w dxMin sxMin tw sw n (dy + tw) (sy + sw) st

/-- layerimage.go:271-320 and 463-509: one tile. The loops `for dy := dyMin*tw; dy < dyMax*tw; dy += tw` and
`for dx := dy+dxMin; dx < dy+dxMax; dx += 4` take `dyMax - dyMin` and `dxMax - dxMin` rounds. -/
def oneTile (k dX ts : Nat) (cell : Int → Res (Option (List UInt8))) (rect : Rect) (p : Int × Int) (buf : List UInt8) :
    Res (List UInt8 × Bool) :=
  let sx := p.1 - rect.minX
  let dxMin := if sx < 0 then 0 - sx else 0
  let sxMin := if sx < 0 then 0 else sx
  let dxMax := if rect.minX + sxMin + (ts - dxMin) > rect.maxX then ts - (rect.minX + sxMin + (ts - dxMin) - rect.maxX) else (ts : Int)
  let sy := p.2 - rect.minY
  let dyMin := if sy < 0 then 0 - sy else 0
  let syMin := if sy < 0 then 0 else sy
  let dyMax := if rect.minY + syMin + (ts - dyMin) > rect.maxY then ts - (rect.minY + syMin + (ts - dyMin) - rect.maxY) else (ts : Int)
  let tw : Int := ts * k
  let sw : Int := rect.dx * dX
  tileRows k dX cell (dxMax - dxMin).toNat (dxMin * k) (sxMin * dX) tw sw (dyMax - dyMin).toNat (dyMin * tw) (syMin * sw) (buf, false)

/-- layerimage.go:258-333 and 451-522: one goroutine. Its buffer is handed over with a tile that is used and kept for the
next tile otherwise. -/
def storeTiles (k dX ts : Nat) (cell : Int → Res (Option (List UInt8))) (rect : Rect) : List (Int × Int) → List UInt8 →
    Res (List ((Int × Int) × List UInt8))
  | [], _ => .ok []
  | p :: ps, buf => do
    let (buf, used) ← oneTile k dX ts cell rect p buf
    if used then
      let rest ← storeTiles k dX ts cell rect ps (List.replicate (ts * k * ts) 0)
      .ok ((p, buf) :: rest)
    else storeTiles k dX ts cell rect ps buf

/-- The goroutines one after another. They share the map, each entry under a lock; no two write the same entry. -/
def storeAll (k dX ts : Nat) (cell : Int → Res (Option (List UInt8))) (rect : Rect) : List (List (Int × Int)) →
    Res (List ((Int × Int) × List UInt8))
  | [] => .ok []
  | w :: ws => do
    let m ← storeTiles k dX ts cell rect w (List.replicate (ts * k * ts) 0)
    let rest ← storeAll k dX ts cell rect ws
    .ok (m ++ rest)

/-- layerimage.go:233-256 `newTiledImage`: the map as a list of entries. -/
def newTiledImage (procs ts : Nat) (rect : Rect) (r g b : List UInt8) (a : Option (List UInt8)) (dX : Nat) :
    Res (List ((Int × Int) × List UInt8)) :=
  storeAll 4 dX ts (imageCell r g b a) rect (tileWork procs ts rect)

/-- layerimage.go:427-449 `newTiledMask`. -/
def newTiledMask (procs ts : Nat) (rect : Rect) (a : List UInt8) (default : UInt8) : Res (List ((Int × Int) × List UInt8)) :=
  storeAll 1 1 ts (maskCell a default) rect (tileWork procs ts rect)

/-- renderer.go:404-415: the pixel `(i, j)` of the tile at `p` of a layer whose mask is enabled. -/
def maskPixel (ts : Nat) (mask : List ((Int × Int) × List UInt8)) (default : UInt8) (p : Int × Int) (i j : Nat) (d : Px) : Res Px :=
  match mask.lookup p with
  | some pix => do
    let v ← byteAt pix (j * ts + i : Nat)
    if default ≠ 255 then drawPD .destIn .nrgba (.alpha v) d else drawPD .destOut .nrgba (.alpha v) d
  | none => if default ≠ 255 then drawPD .clear .nrgba (.uniform ⟨0, 0, 0, 0⟩) d else .ok d

end Psd
