import Verif.Model.Resample

/-!
# Thumbnails

`Thumbnail` and `Thumbnails` (/repo/composite/thumbnail.go). Shrinking itself is `downscale.NRGBAFast` of another repository: it is a
parameter. Cancellation is left out.
-/

namespace Psd

/-- `downscale.NRGBAFast(ctx, dest, src)`: from the width and height of a blank `dest`, the bounds of `src` and `src.Pix` to `dest.Pix`. -/
abbrev Shrinker := (dw dh : Nat) → (src : Rect) → List UInt8 → Res (List UInt8)

/-- A thumbnail: width, height and `Pix`. -/
structure Thumb where
  w : Nat
  h : Nat
  pix : List UInt8
  deriving DecidableEq, Repr

/-- The pixel `(x, y)` of an NRGBA image that covers `rect`. -/
def picAt (rect : Rect) (pix : List UInt8) (x y : Int) : Px :=
  let i := (((y - rect.minY) * rect.dx + (x - rect.minX)) * 4).toNat
  ⟨pix.getD i 0, pix.getD (i + 1) 0, pix.getD (i + 2) 0, pix.getD (i + 3) 0⟩

/-- thumbnail.go:80-84: the buffer the picture is put together in; `temp` is `tempBuffer`. -/
def thumbBuffer (rect : Rect) (temp : List UInt8) : List UInt8 :=
  let n := (rect.dx * 4 * rect.dy).toNat
  if n > temp.length then List.replicate n 0 else temp.take n

/-- thumbnail.go:75-87: the picture of a layer, put together from its tiles: `src.Pix`. -/
def thumbSource (ts : Nat) (order : TileOrder) (tiles : TileMap) (temp : List UInt8) : List UInt8 :=
  let rect := tilesRect ts tiles
  pixOf rect fun x y => (renderTiled ts rect tiles (order rect) (picAt rect (thumbBuffer rect temp)) x y).pix

/-- thumbnail.go:89-105: the picture `src` of `w` by `h` pixels is trimmed and shrunk. -/
def shrinkSource (shrink : Shrinker) (size w h : Nat) (src : List UInt8) : Res Thumb := do
  let (pix, rect, _) ← trim src w h (w * 4) 0
  if rect.dx * rect.dy = 0 then .err (.bad "composite: no canvas")
  else
    let d := thumbSize size rect.dx.toNat rect.dy.toNat
    let out ← shrink d.1 d.2 rect pix
    .ok ⟨d.1, d.2, out⟩

/-- thumbnail.go:67-106 `Thumbnail`; `seqID` is that of a layer or -1, which has no picture. -/
def thumbnail (shrink : Shrinker) (ts : Nat) (order : TileOrder) (images : Nat → Option LayerImage) (seqID : Int) (size : Nat) (temp : List UInt8) :
    Res Thumb :=
  match (if seqID < 0 then none else images seqID.toNat) with
  | none => .err (.bad "composite: layer not found")
  | some img =>
    match img.canvas with
    | none => .err (.bad "composite: no canvas")
    | some tiles =>
      let rect := tilesRect ts tiles
      if rect.empty then .err (.bad "composite: no canvas")
      else shrinkSource shrink size rect.dx.toNat rect.dy.toNat (thumbSource ts order tiles temp)

/-- thumbnail.go:110-112: the `n` layers from index `i` of an array; `inner` is the recursive call. -/
def gatherLoop (inner : Ptr → List Ptr) (arr : Nat) : (n i : Nat) → List Ptr
  | 0, _ => []
  | n + 1, i => inner (arr, i) ++ gatherLoop inner arr n (i + 1)

/-- thumbnail.go:108-113 `gatherLayer`; `fuel` bounds the depth of the recursion. -/
def gatherLayer (h : CHeap) : (fuel : Nat) → Ptr → List Ptr
  | 0, _ => []
  | f + 1, p => p :: gatherLoop (gatherLayer h f) (h.at_ p).children.arr (h.at_ p).children.len 0

/-- thumbnail.go:119-134: the indices of the layers that each goroutine is given. -/
def thumbnailsWork (procs n : Nat) : List (List Nat) :=
  let k := drawWorkers procs n
  (spawnCells (n / k) n (k - 1) 0).map fun r => List.range' r.1 (r.2 - r.1)

/-- thumbnail.go:162-170: the layers with the indices `is`, in the order in which the goroutines get to them. `bufs` is what the buffer of the
goroutine holds when it gets to a layer: nothing is assumed of it, so neither its size (145-160) nor what earlier layers leave in it matters. -/
def thumbnailsInner (thumb : Int → List UInt8 → Res Thumb) (h : CHeap) (layers : List Ptr) (bufs : Nat → List UInt8) : List Nat → (Int → Option Thumb) →
    Res (Int → Option Thumb)
  | [], m => .ok m
  | i :: is, m =>
    match layers[i]? with
    | none => .panic .index
    | some p =>
      let id := (h.at_ p).attr.seqID
      match thumb id (bufs i) with
      | .ok t => thumbnailsInner thumb h layers bufs is fun k => if k = id then some t else m k
      | .err _ => thumbnailsInner thumb h layers bufs is m
      | .panic e => .panic e
      | .fuel => .fuel

/-- thumbnail.go:115-140 `Thumbnails`. `sched` is the order in which the goroutines get to the layers; `fuel` bounds the depth of the recursion. -/
def AnyTree.thumbnails (shrink : Shrinker) (ts : Nat) (order : Nat → TileOrder) (bufs : Nat → List UInt8) (sched : List Nat) (fuel : Nat) (size : Nat) (t : AnyTree) :
    Res (Int → Option Thumb) :=
  thumbnailsInner (fun id buf => thumbnail shrink ts (order id.toNat) t.images id size buf) t.heap (gatherLayer t.heap fuel t.root) bufs sched fun _ => none

/-! ### The sheet -/

/-- thumbnail.go:233 `blend.Copy.Draw(img, place, thumb, image.Point{})`: a thumbnail onto the sheet of side `side`. Which pixels are drawn and what each
becomes is as `C48` has it for NRGBA onto NRGBA. -/
def copyThumb (side : Nat) (place : Rect) (t : Thumb) (pic : Int → Int → Px) : Int → Int → Px := fun x y =>
  if (⟨0, 0, side, side⟩ : Rect).Mem x y ∧ place.Mem x y then
    pxOr (pic x y) (drawPD .copy .nrgba (.px .nrgba (picAt ⟨0, 0, t.w, t.h⟩ t.pix (x - place.minX) (y - place.minY))) (pic x y))
  else pic x y

/-- thumbnail.go:223-237, for the cells of all calls of `thumbnailSheetInner` one after another: the picture and the map `mpt`. -/
def sheetInner (m : Int → Option Thumb) (ids : List Int) (size side : Nat) : List (Nat × Rect) → (Int → Int → Px) → (Int → Option Rect) →
    Res ((Int → Int → Px) × (Int → Option Rect))
  | [], pic, places => .ok (pic, places)
  | (i, cell) :: rest, pic, places =>
    match ids[i]? with
    | none => .panic .index
    | some id =>
      match m id with
      | none => .panic .nilDeref
      | some t => sheetInner m ids size side rest (copyThumb side (thumbPlace size cell (t.w, t.h)) t pic) fun k => if k = id then some cell else places k

/-- thumbnail.go:179-216 of `ThumbnailSheet`: the side of the sheet, its pixels and the map of the cells. `ids` are the keys of the map of thumbnails in the
order in which Go visits them; `fuel` bounds the number of doublings. -/
def thumbnailSheet (procs fuel : Nat) (m : Int → Option Thumb) (ids : List Int) (size : Nat) : Res (Nat × (Int → Int → Px) × (Int → Option Rect)) :=
  if size = 0 then .panic .divZero
  else
    match sheetSide ids.length size fuel 1 with
    | none => .fuel
    | some side =>
      if side > 4096 then .err (.bad "composite: could not create thumbnail sheet because too many layers")
      else (sheetInner m ids size side (sheetCells procs side size ids.length) (fun _ _ => ⟨0, 0, 0, 0⟩) fun _ => none).map fun r => (side, r)

end Psd
