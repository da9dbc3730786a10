import Verif.Model.Basic
import Verif.Model.Draw

/-!
# Splitting areas into tiles and sheets into cells

The loops that /repo/composite uses to walk over the tiles of an area with several goroutines, and the arithmetic of the
thumbnail sheet. Coordinates are unbounded integers, Go's are 64 bits wide.
-/

namespace Psd

/-- `(v / tileSize) * tileSize` with Go's division, which rounds towards zero (renderer.go:238-239, layerimage.go:46-47,
234-235, 359-360, 428-429). -/
def tileStart (ts : Nat) (v : Int) : Int := Int.tdiv v ts * ts

/-- `for t := lo; t < hi; t += tileSize`. -/
def tileSteps (ts : Nat) (hi : Int) : (fuel : Nat) → (t : Int) → List Int
  | 0, _ => []
  | f + 1, t => if t < hi then t :: tileSteps ts hi f (t + ts) else []

/-- The values of the loop `for t := lo; t < hi; t += tileSize`; it takes at most `hi - lo` rounds. -/
def tileLoop (ts : Nat) (lo hi : Int) : List Int := tileSteps ts hi (hi - lo).toNat lo

/-- renderer.go:250-254, layerimage.go:57-61, 247-251, 370-374, 440-444: the ranges of rows of the goroutines; `i` of
them, `step` rows each, before the last. -/
def spawnRows (step y1 : Int) : (i : Nat) → (y0 : Int) → List (Int × Int)
  | 0, y0 => [(y0, y1)]
  | i + 1, y0 => (y0, y0 + step) :: spawnRows step y1 i (y0 + step)

/-- renderer.go:239-254 and the four copies in layerimage.go: the ranges of rows handed to the goroutines. -/
def rowRanges (procs ts : Nat) (y0 y1 : Int) : List (Int × Int) :=
  let ylen := Int.tdiv (y1 - y0) ts
  let n := drawWorkers procs ylen
  let step := Int.tdiv ylen n * ts
  spawnRows step y1 (n - 1) y0

/-- renderer.go:277-281, layerimage.go:67-68, 266-270, 380-381, 458-462: the tiles one goroutine visits, in order. -/
def workerTiles (ts : Nat) (x0 x1 : Int) (y : Int × Int) : List (Int × Int) :=
  (tileLoop ts y.1 y.2).flatMap fun ty => (tileLoop ts x0 x1).map fun tx => (tx, ty)

/-- The tiles each goroutine visits for the area `rect`: renderer.go:238-254 with 274-296, layerimage.go:46-61,
234-251, 359-374, 428-444. -/
def tileWork (procs ts : Nat) (rect : Rect) : List (List (Int × Int)) :=
  (rowRanges procs ts (tileStart ts rect.minY) rect.maxY).map (workerTiles ts (tileStart ts rect.minX) rect.maxX)

/-! ### thumbnail.go -/

/-- thumbnail.go:184-192: the search for the side of the sheet. -/
def sheetSide (n size : Nat) : (fuel : Nat) → (t : Nat) → Option Nat
  | 0, _ => none
  | f + 1, t => if (t / size) * (t / size) ≥ n then some t else sheetSide n size f (t + t)

/-- thumbnail.go:222-232: the cell of the `i`-th thumbnail on a sheet of side `t`. -/
def sheetCell (t size i : Nat) : Rect :=
  let iw := t / size
  let n := i / iw
  let x := (i - n * iw) * size
  let y := n * size
  ⟨x, y, x + size, y + size⟩

/-- thumbnail.go:205-212: the ranges of indices of the workers. -/
def spawnCells (step n : Nat) : (i : Nat) → (idx : Nat) → List (Nat × Nat)
  | 0, idx => [(idx, n)]
  | i + 1, idx => (idx, idx + step) :: spawnCells step n i (idx + step)

/-- thumbnail.go:199-238 with `thumbnailSheetInner`: the cells in the order they are made; each is the index of the
thumbnail and its cell. The workers run one after another. -/
def sheetCells (procs t size n : Nat) : List (Nat × Rect) :=
  (spawnCells (n / drawWorkers procs n) n (drawWorkers procs n - 1) 0).flatMap fun r =>
    (List.range' r.1 (r.2 - r.1)).map fun i => (i, sheetCell t size i)

/-- The size of the thumbnail of a `sw` by `sh` picture (thumbnail.go:97-101). -/
def thumbSize (size sw sh : Nat) : Nat × Nat :=
  if sw > sh then (size, sh * size / sw) else (sw * size / sh, size)

/-- Where a thumbnail of size `d` is put in the cell at `(x, y)` (thumbnail.go:231-233). -/
def thumbPlace (size : Nat) (cell : Rect) (d : Nat × Nat) : Rect :=
  let ox := cell.minX + Int.tdiv (size - d.1) 2
  let oy := cell.minY + Int.tdiv (size - d.2) 2
  ⟨ox, oy, ox + d.1, oy + d.2⟩

/-! ### trimUnusedArea -/

/-- thumbnail.go:25-26: the first pixel of a row, from `l` on, with alpha above the threshold; `n` pixels are left. -/
def findLeft (pix : List UInt8) (thr : UInt8) : (n : Nat) → (l : Nat) → Res (Option Nat)
  | 0, _ => .ok none
  | n + 1, l =>
    match pix[l * 4 + 3]? with
    | none => .panic .index
    | some a => if a > thr then .ok (some l) else findLeft pix thr n (l + 1)

/-- thumbnail.go:30-37: the last such pixel from `l` on; `n` pixels are left. -/
def findRight (pix : List UInt8) (thr : UInt8) (l : Nat) : (n : Nat) → Res (Option Nat)
  | 0 => .ok none
  | n + 1 =>
    match pix[(l + n) * 4 + 3]? with
    | none => .panic .index
    | some a => if a > thr then .ok (some (l + n)) else findRight pix thr l n

/-- thumbnail.go:26-43: what a row does to the rectangle found so far. -/
def scanRow (pix : List UInt8) (thr : UInt8) (w : Nat) (y : Nat) (box : Rect) : Res Rect := do
  match ← findLeft pix thr w 0 with
  | none => .ok box
  | some l =>
    let minX := if (l : Int) < box.minX then (l : Int) else box.minX
    let maxX ← (do
      match ← findRight pix thr l (w - l) with
      | none => .ok box.maxX
      | some r => .ok (if (r : Int) > box.maxX then (r : Int) else box.maxX) : Res Int)
    let minY := if (y : Int) < box.minY then (y : Int) else box.minY
    .ok ⟨minX, minY, maxX, y⟩

/-- thumbnail.go:24-46. -/
def scanRows (thr : UInt8) (w stride : Nat) : (n : Nat) → (y : Nat) → (pix : List UInt8) → (box : Rect) → Res Rect
  | 0, _, _, box => .ok box
  | n + 1, y, pix, box => do
    let box ← scanRow pix thr w y box
    if stride ≤ pix.length then scanRows thr w stride n (y + 1) (pix.drop stride) box else .panic .index

/-- thumbnail.go:56-60: rows are moved to the front of the same buffer; `d`, `s` are the offsets of the slices. -/
def moveRows (w stride : Nat) : (n : Nat) → (d s : Nat) → (pix : List UInt8) → Res (List UInt8)
  | 0, _, _, pix => .ok pix
  | n + 1, d, s, pix =>
    if s + w ≤ pix.length ∧ d + w ≤ pix.length then
      let pix := pix.take d ++ (pix.drop s).take w ++ pix.drop (d + w)
      if s + stride ≤ pix.length then moveRows w stride n (d + w) (s + stride) pix else .panic .index
    else .panic .index

/-- thumbnail.go:19-64 `trimUnusedArea` for an image of `w` by `h` pixels whose buffer is `pix` (its capacity is taken
to be its length, as it is for the images `Thumbnail` makes). The result is the new buffer, rectangle and stride. -/
def trim (pix : List UInt8) (w h stride : Nat) (thr : UInt8) : Res (List UInt8 × Rect × Int) := do
  if pix.length < h * stride then .panic .index
  else
    let rect ← scanRows thr w stride h 0 (pix.take (h * stride)) ⟨w, h, -1, -1⟩
    if rect.dx * rect.dy = (w : Int) * h then .ok (pix, ⟨0, 0, w, h⟩, stride)
    else
      let s : Int := stride * rect.minY + rect.minX * 4
      if s < 0 ∨ s > h * stride then .panic .index
      else
        let w4 : Int := rect.dx * 4
        let out ← moveRows w4.toNat stride rect.dy.toNat 0 s.toNat pix
        let len : Int := rect.dy * w4
        if len < 0 ∨ len > pix.length then .panic .index
        else .ok (out.take len.toNat, rect, w4)

end Psd
