import Verif.Model.Scene

/-!
# Transforming a tree

`Render` and `Transform` of tiled pictures and masks (/repo/composite/layerimage.go), and `Tree.Transform` (/repo/composite/layer.go). The
interpolation itself is `draw.BiLinear` of golang.org/x/image, which is not part of the repository: it is a parameter. The entries of the
matrix are rational numbers, where Go has 64-bit floating point; gamma tables are any tables. Cancellation is left out.
-/

namespace Psd

/-! ### Putting tiles together -/

/-- layerimage.go:70-71 `blend.Copy.Draw(img, rect, b, rect.Min)`: the tile `buf` at `p` onto the picture `pic` that covers `rect`. Which
pixels are drawn and what each becomes is as `C48` has it for NRGBA onto NRGBA. -/
def copyTile (ts : Nat) (rect : Rect) (p : Int × Int) (buf : List UInt8) (pic : Int → Int → Px) : Int → Int → Px := fun x y =>
  if rect.Mem x y ∧ (tileRect ts p).Mem x y then
    pxOr (pic x y) (drawPD .copy .nrgba (.px .nrgba (nrgbaTile buf ((y - p.2).toNat * ts + (x - p.1).toNat))) (pic x y))
  else pic x y

/-- layerimage.go:73 `blend.Clear.Draw`. -/
def eraseTile (ts : Nat) (rect : Rect) (p : Int × Int) (pic : Int → Int → Px) : Int → Int → Px := fun x y =>
  if rect.Mem x y ∧ (tileRect ts p).Mem x y then pxOr (pic x y) (drawPD .clear .nrgba (.uniform ⟨0, 0, 0, 0⟩) (pic x y)) else pic x y

/-- layerimage.go:65-77 `renderInner`: the tiles `ps`, in the order in which the goroutines get to them. -/
def renderTiled (ts : Nat) (rect : Rect) (tiles : TileMap) (ps : List (Int × Int)) (pic : Int → Int → Px) : Int → Int → Px :=
  ps.foldl (fun pic p =>
    match tiles.lookup p with
    | some buf => copyTile ts rect p buf pic
    | none => eraseTile ts rect p pic) pic

/-- layerimage.go:383-384 for the tile of a mask, an `*image.Alpha` drawn onto another: `drawFallback` (blend/zporterduffs.go:930-968) reads
`color.Alpha`, whose alpha is `v | v<<8`, and `Set` of `*image.Alpha` keeps the upper byte. -/
def alphaThrough (v : UInt8) : UInt8 := ((v.toUInt16 ||| (v.toUInt16 <<< 8)) >>> 8).toUInt8

/-- layerimage.go:378-389 `renderInner` of masks; clearing stores 0. -/
def renderMask (ts : Nat) (rect : Rect) (tiles : TileMap) (ps : List (Int × Int)) (pic : Int → Int → UInt8) : Int → Int → UInt8 :=
  ps.foldl (fun pic p x y =>
    if rect.Mem x y ∧ (tileRect ts p).Mem x y then
      match tiles.lookup p with
      | some buf => alphaThrough (alphaTile buf ((y - p.2).toNat * ts + (x - p.1).toNat))
      | none => 0
    else pic x y) pic

/-- `Pix` of an image that covers `rect`, with `k` bytes a pixel: row by row. -/
def pixOf (rect : Rect) (pic : Int → Int → List UInt8) : List UInt8 :=
  (List.range (rect.dx.toNat * rect.dy.toNat)).flatMap fun i => pic (rect.minX + (i % rect.dx.toNat : Nat)) (rect.minY + (i / rect.dx.toNat : Nat))

/-- The bytes of an NRGBA pixel. -/
def Px.pix (p : Px) : List UInt8 := [p.r, p.g, p.b, p.a]

/-! ### Interpolation -/

/-- `draw.BiLinear.Transform(dst, m, src, sr, draw.Src, nil)` for the three kinds of images: from the matrix, the bounds of a blank `dst`, those
of `src`, and `src.Pix`, to `dst.Pix`. -/
structure Resampler where
  nrgba : Aff3 → Rect → Rect → List UInt8 → List UInt8
  nrgba64 : Aff3 → Rect → Rect → List UInt8 → List UInt8
  alpha : Aff3 → Rect → Rect → List UInt8 → List UInt8

/-- layerimage.go:79-82 `gammaTable`. `makeGammaTable` (layerimage.go:84-96) fills the tables with `math.Pow`; it is modelled
in Model/Gamma.lean. Here any two tables are allowed. -/
structure GammaTable where
  t8 : UInt8 → UInt16
  t16 : UInt16 → UInt8

/-- layerimage.go:109-129: `n` pixels, from the byte `s` of the channels on. -/
def createPixels (cell : Int → Res (List UInt8)) (dX : Nat) : (n : Nat) → (s : Nat) → Res (List UInt8)
  | 0, _ => .ok []
  | n + 1, s => do
    let px ← cell s
    let rest ← createPixels cell dX n (s + dX)
    .ok (px ++ rest)

/-- layerimage.go:98-135 `createImage`: its `Pix`. -/
def createImage (rect : Rect) (r g b : List UInt8) (a : Option (List UInt8)) (dX : Nat) : Res (List UInt8) :=
  if dX = 4 then .ok r
  else createPixels (fun s => (imageCell r g b a s).map (·.getD [0, 0, 0, 0])) dX (rect.dx.toNat * rect.dy.toNat) 0

/-- layerimage.go:143-151 and 158-166: one pixel, from its 8-bit colour. -/
def gammaPixel (t8 : UInt8 → UInt16) : List UInt8 → List UInt8
  | [r, g, b, a] => [((t8 r) >>> 8).toUInt8, (t8 r).toUInt8, ((t8 g) >>> 8).toUInt8, (t8 g).toUInt8, ((t8 b) >>> 8).toUInt8, (t8 b).toUInt8, a, a]
  | _ => List.replicate 8 0

/-- layerimage.go:137-177 `createImageGamma`: its `Pix`. The channels of a pixel are read in another order than in `createImage`, which makes
no difference. -/
def createImageGamma (rect : Rect) (r g b : List UInt8) (a : Option (List UInt8)) (dX : Nat) (t8 : UInt8 → UInt16) : Res (List UInt8) :=
  createPixels (fun s => (imageCell r g b a s).map fun px => match px with
    | some px => gammaPixel t8 px
    | none => List.replicate 8 0) dX (rect.dx.toNat * rect.dy.toNat) 0

/-- layerimage.go:179-188 `restoreGamma`. -/
def restoreGamma (t16 : UInt16 → UInt8) : List UInt8 → List UInt8
  | r :: r' :: g :: g' :: b :: b' :: a :: a' :: rest =>
    t16 (r.toUInt16 <<< 8 ||| r'.toUInt16) :: r' :: t16 (g.toUInt16 <<< 8 ||| g'.toUInt16) :: g' ::
      t16 (b.toUInt16 <<< 8 ||| b'.toUInt16) :: b' :: a :: a' :: restoreGamma t16 rest
  | rest => rest

/-- layerimage.go:215, 416. -/
def Aff3.isIdentity (m : Aff3) : Bool := m.m0 = 1 && m.m1 = 0 && m.m2 = 0 && m.m3 = 0 && m.m4 = 1 && m.m5 = 0

/-- layerimage.go:214-231 `newScaledTiledImage`. -/
def newScaledTiledImage (R : Resampler) (procs ts : Nat) (rect : Rect) (r g b : List UInt8) (a : Option (List UInt8)) (dX : Nat) (m : Aff3)
    (gt : Option GammaTable) : Res TileMap :=
  if m.isIdentity then newTiledImage procs ts rect r g b a dX
  else
    let tr := transformRect rect m
    match gt with
    | none => do
      let tmp ← createImage rect r g b a dX
      let out := R.nrgba m tr rect tmp
      newTiledImage procs ts tr out (out.drop 1) (out.drop 2) (some (out.drop 3)) 4
    | some gt => do
      let tmp ← createImageGamma rect r g b a dX gt.t8
      let out := restoreGamma gt.t16 (R.nrgba64 m tr rect tmp)
      newTiledImage procs ts tr out (out.drop 2) (out.drop 4) (some (out.drop 6)) 8

/-- layerimage.go:415-425 `newScaledTiledMask`, with 391-397 `createMask`. -/
def newScaledTiledMask (R : Resampler) (procs ts : Nat) (rect : Rect) (a : List UInt8) (default : UInt8) (m : Aff3) : Res TileMap :=
  if m.isIdentity then newTiledMask procs ts rect a default
  else newTiledMask procs ts (transformRect rect m) (R.alpha m (transformRect rect m) rect a) default

/-- A schedule: for the area of a picture that is put together, the order in which its tiles are drawn. -/
abbrev TileOrder := Rect → List (Int × Int)

/-- layerimage.go:197-212 `Transform` of a picture; `tileSize` (190-195) is `ts` as there is a tile. -/
def transformCanvas (R : Resampler) (procs ts : Nat) (order : TileOrder) (tiles : TileMap) (m : Aff3) (gt : Option GammaTable) : Res TileMap :=
  let rect := tilesRect ts tiles
  if rect.empty then .ok []
  else
    let tmp := pixOf rect fun x y => (renderTiled ts rect tiles (order rect) (fun _ _ => ⟨0, 0, 0, 0⟩) x y).pix
    newScaledTiledImage R procs ts rect tmp (tmp.drop 1) (tmp.drop 2) (some (tmp.drop 3)) 4 m gt

/-- layerimage.go:399-413 `Transform` of a mask. -/
def transformMask (R : Resampler) (procs ts : Nat) (order : TileOrder) (tiles : TileMap) (m : Aff3) : Res TileMap :=
  let rect := tilesRect ts tiles
  if rect.empty then .ok []
  else
    let tmp := pixOf rect fun x y => [renderMask ts rect tiles (order rect) (fun _ _ => 0) x y]
    newScaledTiledMask R procs ts rect tmp 0 m

/-- layer.go:97-106: what a layer does not have is not transformed. -/
def transformOpt (f : TileMap → Res TileMap) : Option TileMap → Res (Option TileMap)
  | some c => (f c).map some
  | none => .ok none

/-- layer.go:93-107: one picture with its mask. -/
def transformImage (R : Resampler) (procs ts : Nat) (order : TileOrder) (m : Aff3) (gt : Option GammaTable) (img : LayerImage) : Res LayerImage := do
  let c ← transformOpt (fun c => transformCanvas R procs ts order c m gt) img.canvas
  let k ← transformOpt (fun k => transformMask R procs ts order k m) img.mask
  .ok ⟨c, k⟩

/-- layer.go:86-111 `transformInner`: one goroutine. -/
def transformInner (R : Resampler) (procs ts : Nat) (order : TileOrder) (m : Aff3) (gt : Option GammaTable) : List (Nat × LayerImage) →
    (Nat → Option LayerImage) → Res (Nat → Option LayerImage)
  | [], out => .ok out
  | (id, img) :: rest, out => do
    let img ← transformImage R procs ts order m gt img
    transformInner R procs ts order m gt rest fun k => if k = id then some img else out k

/-- layer.go:74-79: the goroutines one after another. They share the map; no two store the same entry. -/
def transformAll (R : Resampler) (procs ts : Nat) (order : TileOrder) (m : Aff3) (gt : Option GammaTable) : List (List (Nat × LayerImage)) →
    (Nat → Option LayerImage) → Res (Nat → Option LayerImage)
  | [], out => .ok out
  | w :: ws, out => do
    let out ← transformInner R procs ts order m gt w out
    transformAll R procs ts order m gt ws out

/-- layer.go:64-79: the entries of the map `layerImage`, in the order in which Go visits them, cut into a range for each goroutine. -/
def transformWork (procs : Nat) (entries : List (Nat × LayerImage)) : List (List (Nat × LayerImage)) :=
  let n := drawWorkers procs entries.length
  (spawnCells (entries.length / n) entries.length (n - 1) 0).map fun r => (entries.drop r.1).take (r.2 - r.1)

/-- A tree whose root is anywhere (layer.go:23-32). -/
structure AnyTree where
  heap : CHeap
  root : Ptr
  images : Nat → Option LayerImage
  rect : Rect
  canvasRect : Rect

/-- layer.go:44-84 `Transform`: the new tree. `fuel` bounds the depth of the recursion of `Clone`. -/
def AnyTree.transform (R : Resampler) (procs ts : Nat) (order : TileOrder) (entries : List (Nat × LayerImage)) (fuel : Nat) (m : Aff3)
    (gt : Option GammaTable) (t : AnyTree) : Res AnyTree := do
  let (h, root) := cloneTree fuel t.root t.heap
  let images ← transformAll R procs ts order m gt (transformWork procs entries) fun _ => none
  .ok ⟨h, root, images, transformRect t.rect m, transformRect t.canvasRect m⟩

end Psd
