import Verif.Spec.Load
import Verif.Model.Resample

/-!
# What a transformed tree should be
-/

namespace Psd

/-- Tiles of `k` bytes a pixel, the last of which is the alpha (or the value of a mask), as a tree has them: on the grid, no two at the same place,
each with something to see, and with zeros for pixels that are not seen. -/
structure Stored (ts k : Nat) (m : TileMap) : Prop where
  nodup : (m.map Prod.fst).Nodup
  grid : ∀ e ∈ m, (ts : Int) ∣ e.1.1 ∧ (ts : Int) ∣ e.1.2
  size : ∀ e ∈ m, e.2.length = ts * k * ts
  used : ∀ e ∈ m, ∃ x y : Int, e.1 = (x / ts * ts, y / ts * ts) ∧ (tilePixel ts k m x y).getD (k - 1) 0 ≠ 0
  clean : ∀ x y, (tilePixel ts k m x y).getD (k - 1) 0 = 0 → tilePixel ts k m x y = List.replicate k 0

/-- The pixel `q` is `p` up to the rounding of `blend.Copy`: its alpha is that of `p`, each colour is that of `p` or one less, and it is that of `p`
if it is 0 or its product with the alpha is at least 255. -/
def CopyOf (p q : List UInt8) : Prop :=
  ∃ r g b a r' g' b' : UInt8, p = [r, g, b, a] ∧ q = [r', g', b', a] ∧ ∀ x y, (x, y) ∈ [(r, r'), (g, g'), (b, b')] →
    y.toNat ≤ x.toNat ∧ x.toNat ≤ y.toNat + 1 ∧ (x = 0 ∨ 255 ≤ x.toNat * a.toNat → y = x)

/-- Tiles of two pictures are at the same places. -/
def SamePlaces (m m' : TileMap) : Prop := ∀ p, (m.lookup p).isSome = (m'.lookup p).isSome

/-- `order` tells the order in which the tiles of a picture are drawn: each of those that the goroutines are given once, in any order. -/
def Orders (procs ts : Nat) (order : TileOrder) : Prop := ∀ r, (order r).Perm (tileWork procs ts r).flatten

/-- The bytes of the pixel `(x, y)` in `pix`, the rows of `rect` one after another with `k` bytes a pixel. -/
def bytesAt (rect : Rect) (k : Nat) (pix : List UInt8) (x y : Int) : List UInt8 := (List.range k).map fun c => channelAt rect k (pix.drop c) x y

/-- `pix` are the rows of the picture `pic` of `rect`, with `k` bytes a pixel. -/
def Rows (k : Nat) (rect : Rect) (pix : List UInt8) (pic : Int → Int → List UInt8) : Prop :=
  pix.length = rect.dx.toNat * rect.dy.toNat * k ∧ ∀ x y, rect.Mem x y → bytesAt rect k pix x y = pic x y

/-- Interpolation gives pictures of the size that is asked for. -/
structure Resampler.Proper (R : Resampler) : Prop where
  nrgba : ∀ m dst src pix, (R.nrgba m dst src pix).length = dst.dx.toNat * dst.dy.toNat * 4
  nrgba64 : ∀ m dst src pix, (R.nrgba64 m dst src pix).length = dst.dx.toNat * dst.dy.toNat * 8
  alpha : ∀ m dst src pix, (R.alpha m dst src pix).length = dst.dx.toNat * dst.dy.toNat * 1

/-- A pixel, the last byte of which is its alpha, as it is seen: all zeros if its alpha is 0. -/
def asSeen (px : List UInt8) : List UInt8 := if px.getD (px.length - 1) 0 = 0 then List.replicate px.length 0 else px

/-- A 16-bit value from its bytes. -/
def be16 (hi lo : UInt8) : UInt16 := hi.toUInt16 <<< 8 ||| lo.toUInt16

/-- A 16-bit pixel for a pixel that is seen, with the colours under `t8`; zeros for one that is not. -/
def widened (t8 : UInt8 → UInt16) : List UInt8 → List UInt8
  | [r, g, b, a] =>
    if a = 0 then List.replicate 8 0
    else ([t8 r, t8 g, t8 b].flatMap fun v : UInt16 => [(v >>> 8).toUInt8, v.toUInt8]) ++ [a, a]
  | _ => []

/-- The pixel for a 16-bit pixel, with the colours under `t16`. -/
def narrowed (t16 : UInt16 → UInt8) : List UInt8 → List UInt8
  | [r, r', g, g', b, b', a, _] => [t16 (be16 r r'), t16 (be16 g g'), t16 (be16 b b'), a]
  | _ => []

/-- `entries` are the entries of the map `images`, in any order. -/
def Lists (images : Nat → Option LayerImage) (entries : List (Nat × LayerImage)) : Prop :=
  (entries.map Prod.fst).Nodup ∧ ∀ k img, images k = some img ↔ (k, img) ∈ entries

/-- The picture and the mask of a layer are as a tree has them. -/
def LayerImage.Stored (ts : Nat) (img : LayerImage) : Prop :=
  (∀ c, img.canvas = some c → Psd.Stored ts 4 c) ∧ ∀ k, img.mask = some k → Psd.Stored ts 1 k

/-- Two pictures are the same up to the rounding of `blend.Copy`. -/
def CanvasCopy (ts : Nat) : Option TileMap → Option TileMap → Prop
  | none, none => True
  | some c, some c' => SamePlaces c c' ∧ ∀ x y, CopyOf (tilePixel ts 4 c x y) (tilePixel ts 4 c' x y)
  | _, _ => False

/-- Two masks are the same. -/
def MaskCopy (ts : Nat) : Option TileMap → Option TileMap → Prop
  | none, none => True
  | some c, some c' => SamePlaces c c' ∧ ∀ x y, tilePixel ts 1 c x y = tilePixel ts 1 c' x y
  | _, _ => False

/-- The picture `c'` is the picture `c` under `m`: its pixels are those that interpolation gives when applied to `c`, up to the rounding of
`blend.Copy`, in the rectangle that `transformRect` gives for the tiles of `c`, as far as it is kept (`Rect.Keeps`); on the canvas, it is. -/
def Resampled (R : Resampler) (ts : Nat) (m : Aff3) (c c' : TileMap) : Prop :=
  (c = [] ∧ c' = []) ∨ ∃ (flat : Int → Int → List UInt8) (src : List UInt8), (∀ x y, CopyOf (tilePixel ts 4 c x y) (flat x y)) ∧ Rows 4 (tilesRect ts c) src flat ∧
    ∀ x y, tilePixel ts 4 c' x y =
      if (transformRect (tilesRect ts c) m).Keeps ts x y then
        asSeen (bytesAt (transformRect (tilesRect ts c) m) 4 (R.nrgba m (transformRect (tilesRect ts c) m) (tilesRect ts c) src) x y)
      else List.replicate 4 0

/-- The same with gamma: interpolation is applied to 16-bit colours. -/
def ResampledGamma (R : Resampler) (ts : Nat) (m : Aff3) (gt : GammaTable) (c c' : TileMap) : Prop :=
  (c = [] ∧ c' = []) ∨ ∃ (flat : Int → Int → List UInt8) (src : List UInt8), (∀ x y, CopyOf (tilePixel ts 4 c x y) (flat x y)) ∧ Rows 8 (tilesRect ts c) src (fun x y => widened gt.t8 (flat x y)) ∧
    ∀ x y, tilePixel ts 4 c' x y =
      if (transformRect (tilesRect ts c) m).Keeps ts x y then
        asSeen (narrowed gt.t16 (bytesAt (transformRect (tilesRect ts c) m) 8 (R.nrgba64 m (transformRect (tilesRect ts c) m) (tilesRect ts c) src) x y))
      else List.replicate 4 0

/-- The same for masks. -/
def ResampledMask (R : Resampler) (ts : Nat) (m : Aff3) (c c' : TileMap) : Prop :=
  (c = [] ∧ c' = []) ∨ ∃ src, Rows 1 (tilesRect ts c) src (tilePixel ts 1 c) ∧
    ∀ x y, tilePixel ts 1 c' x y =
      if (transformRect (tilesRect ts c) m).Keeps ts x y then
        bytesAt (transformRect (tilesRect ts c) m) 1 (R.alpha m (transformRect (tilesRect ts c) m) (tilesRect ts c) src) x y
      else [0]

/-- What there is is transformed, and there is nothing else. -/
def OptRel (P : TileMap → TileMap → Prop) : Option TileMap → Option TileMap → Prop
  | none, none => True
  | some c, some c' => P c c'
  | _, _ => False

end Psd
