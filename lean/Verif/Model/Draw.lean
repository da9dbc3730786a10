import Verif.Model.Prog
import Verif.Model.Blend16

/-!
# Drawing one image onto another

`blend/draw.go` and `blend/util.go`: clipping, the choice of a kernel, the walk over the pixels and its split over
goroutines. Images share memory through their slices, so that an image can be drawn onto itself or onto a sub-image of
itself.

Simplification: coordinates, strides and offsets are unbounded integers, Go's are 64 bits wide.
-/

namespace Psd

/-- A byte of memory: the allocation and the offset into it. -/
abbrev Addr := Nat × Int

/-- A `[]byte`: `len` bytes of allocation `buf` starting at `base`. -/
structure Sl where
  buf : Nat
  base : Int
  len : Int
  deriving DecidableEq, Repr

abbrev DProg := Prog Addr UInt8

/-- `s[i]` as an address. -/
def Sl.addr (s : Sl) (i : Int) : Addr := (s.buf, s.base + i)

/-- `s[lo:]`, or a panic. -/
def Sl.from (s : Sl) (lo : Int) (k : Sl → DProg) : DProg :=
  if 0 ≤ lo ∧ lo ≤ s.len then k ⟨s.buf, s.base + lo, s.len - lo⟩ else .panic

/-- The `n` bytes `s[i]`, …, `s[i+n-1]`, or a panic. -/
def Sl.bytes (s : Sl) (i : Int) (n : Nat) (k : List Addr → DProg) : DProg :=
  if 0 ≤ i ∧ i + n ≤ s.len then k ((List.range n).map fun (t : Nat) => s.addr (i + t)) else .panic

/-- `image.RGBA`, `image.NRGBA` and `image.Alpha`: they differ in the bytes per pixel and in their meaning. -/
structure Raw where
  pix : Sl
  stride : Int
  rect : Rect
  deriving DecidableEq, Repr

/-- `PixOffset(x, y)` for `n` bytes per pixel. -/
def Raw.pixOffset (im : Raw) (n : Nat) (x y : Int) : Int :=
  (y - im.rect.minY) * im.stride + (x - im.rect.minX) * n

/-- Any other `image.Image`: `At(x, y)` reads the bytes `cells x y` and makes a colour of them with `dec`;
`Set(x, y, c)` overwrites the same bytes with `enc c`. -/
structure AbsImg where
  rect : Rect
  cells : Int → Int → List Addr
  dec : List UInt8 → RGBA32
  enc : RGBA32 → List UInt8

/-- What the drawing code tells apart by type. -/
inductive DImg where
  /-- `*image.RGBA`, `*image.NRGBA` -/
  | four (k : PixKind) (im : Raw)
  /-- `*image.Alpha` -/
  | alpha (im : Raw)
  /-- `*image.Uniform`; `c` is what `C.RGBA()` returns -/
  | uniform (c : RGBA32)
  | other (o : AbsImg)

/-- `Bounds()`; for `*image.Uniform` it is (-1e9, -1e9)-(1e9, 1e9). -/
def DImg.bounds : DImg → Rect
  | .four _ im => im.rect
  | .alpha im => im.rect
  | .uniform _ => ⟨-1000000000, -1000000000, 1000000000, 1000000000⟩
  | .other o => o.rect

/-- The bytes of a pixel in the order of `Pix`. -/
def Px.ofBytes : List UInt8 → Px
  | [r, g, b, a] => ⟨r, g, b, a⟩
  | _ => ⟨0, 0, 0, 0⟩

def Px.bytes (p : Px) : List UInt8 := [p.r, p.g, p.b, p.a]

/-- The bytes `At(x, y)` reads and `Set(x, y, c)` writes (Go's image package: none outside the bounds). -/
def DImg.cells : DImg → Int → Int → List Addr
  | .four _ im, x, y => if im.rect.Mem x y then (List.range 4).map fun (t : Nat) => im.pix.addr (im.pixOffset 4 x y + t) else []
  | .alpha im, x, y => if im.rect.Mem x y then [im.pix.addr (im.pixOffset 1 x y)] else []
  | .uniform _, _, _ => []
  | .other o, x, y => o.cells x y

/-- `At(x, y).RGBA()` from the bytes read (Go's image and image/color packages). -/
def DImg.dec : DImg → List UInt8 → RGBA32
  | .four k _, bs => readPx k (Px.ofBytes bs)
  | .alpha _, bs => match bs with
    | [a] => ⟨a.toUInt32 * 0x0101, a.toUInt32 * 0x0101, a.toUInt32 * 0x0101, a.toUInt32 * 0x0101⟩
    | _ => ⟨0, 0, 0, 0⟩
  | .uniform c, _ => c
  | .other o, bs => o.dec bs

/-- The bytes `Set(x, y, c)` writes (Go's `color.RGBAModel`, `color.NRGBAModel`, `color.AlphaModel`). `*image.Uniform` has
no `Set`: it cannot be drawn to. -/
def DImg.enc : DImg → RGBA32 → List UInt8
  | .four k _, c => match storePx k c with | .ok p => p.bytes | _ => []
  | .alpha _, c => [hi8 c.a]
  | .uniform _, _ => []
  | .other o, c => o.enc c

/-! ## util.go -/

/-- util.go:204-208. `same` is `image.Image(dst) == src`. -/
def processBackward (same : Bool) (r : Rect) (spX spY : Int) : Bool :=
  let q := r.add (spX - r.minX) (spY - r.minY)
  same &&
  (!r.empty && !q.empty && decide (r.minX < q.maxX ∧ q.minX < r.maxX ∧ r.minY < q.maxY ∧ q.minY < r.maxY)) &&
  (decide (spY < r.minY) || (decide (spY = r.minY) && decide (spX < r.minX)))

/-- What `clip` leaves in its arguments. -/
structure Clipped where
  r : Rect
  spX : Int
  spY : Int
  mpX : Int
  mpY : Int
  deriving DecidableEq, Repr

/-- util.go:213-231. -/
def clip (dst : Rect) (r : Rect) (src : Rect) (spX spY : Int) (mask : Option Rect) (mpX mpY : Int) : Clipped :=
  let ox := r.minX
  let oy := r.minY
  let r := r.intersect dst
  let r := r.intersect (src.add (ox - spX) (oy - spY))
  let r := match mask with
    | none => r
    | some b => r.intersect (b.add (ox - mpX) (oy - mpY))
  let dx := r.minX - ox
  let dy := r.minY - oy
  if dx = 0 ∧ dy = 0 then ⟨r, spX, spY, mpX, mpY⟩ else ⟨r, spX + dx, spY + dy, mpX + dx, mpY + dy⟩

/-- What `prepare4to4` and `prepare1to4` return. -/
structure Walk where
  d0 : Int
  dx0 : Int
  dx1 : Int
  dxDelta : Int
  dyDelta : Int
  s0 : Int
  sx0 : Int
  sx1 : Int
  sxDelta : Int
  syDelta : Int
  deriving DecidableEq, Repr

/-- util.go:237-255 (`prepare4to4`, `n` = 4) and 257-275 (`prepare1to4`, `n` = 1): `n` bytes per source pixel. -/
def prepare (n : Nat) (dst src : Raw) (r : Rect) (spX spY : Int) : Walk :=
  let dx := r.dx
  let dy := r.dy
  let d0 := dst.pixOffset 4 r.minX r.minY
  let s0 := src.pixOffset n spX spY
  if r.minY < spY ∨ r.minY = spY ∧ r.minX ≤ spX then
    { d0 := d0, dx0 := 0, dx1 := dx * 4, dxDelta := 4, dyDelta := dst.stride
      s0 := s0, sx0 := 0, sx1 := dx * n, sxDelta := n, syDelta := src.stride }
  else
    { d0 := d0 + (dy - 1) * dst.stride, dx0 := (dx - 1) * 4, dx1 := -4, dxDelta := -4, dyDelta := -dst.stride
      s0 := s0 + (dy - 1) * src.stride, sx0 := (dx - 1) * n, sx1 := -n, sxDelta := -n, syDelta := -src.stride }

/-! ## The kernels' loops -/

/-- `for i, j := …; i != end; i, j = i+di, j+dj { body }`; then `k`. A loop that misses its end would never stop: it is
given `fuel` rounds and counts as a panic if they do not suffice. -/
def loop (body : Int → Int → DProg → DProg) (end_ di dj : Int) : Nat → Int → Int → DProg → DProg
  | 0, i, _, k => if i = end_ then k else .panic
  | fuel + 1, i, j, k => if i = end_ then k else body i j (loop body end_ di dj fuel (i + di) (j + dj) k)

/-- One pixel of a kernel: read `n` source bytes at `spix[i:]` and four destination bytes at `dpix[j:]`, write the four.
Simplifications: all reads come first and all four bytes are written even where the Go code leaves an unchanged pixel
alone (`continue`); the kernels that do not need the source or the destination read it all the same. -/
def kernelPixel (n : Nat) (px : List UInt8 → Px → Res Px) (dpix spix : Sl) (i j : Int) (k : DProg) : DProg :=
  spix.bytes i n fun sa => dpix.bytes j 4 fun da =>
    readAll sa fun sv => readAll da fun dv =>
      match px sv (Px.ofBytes dv) with
      | .ok p => writeAll da p.bytes k
      | _ => .panic

/-- The loops every `draw…To…` kernel is made of (zblends.go:119-211, zporterduffs.go:177-376). -/
def drawFunc (n : Nat) (px : List UInt8 → Px → Res Px) (dest src : Sl) (w : Walk) : Int → Int → Nat → DProg
  | _, _, 0 => .done
  | d0, s0, y + 1 => dest.from d0 fun dpix => src.from s0 fun spix =>
      loop (fun i j => kernelPixel n px dpix spix i j) w.sx1 w.sxDelta w.dxDelta (w.sx1 - w.sx0).natAbs w.sx0 w.dx0
        (drawFunc n px dest src w (d0 + w.dyDelta) (s0 + w.syDelta) y)

/-- One pixel of a uniform kernel. -/
def uniformPixel (px : Px → Res Px) (dpix : Sl) (j : Int) (k : DProg) : DProg :=
  dpix.bytes j 4 fun da => readAll da fun dv =>
    match px (Px.ofBytes dv) with
    | .ok p => writeAll da p.bytes k
    | _ => .panic

/-- The loops of a `draw…UniformTo…` kernel (zporterduffs.go:347-399). -/
def drawUniformFunc (px : Px → Res Px) (dest : Sl) (dx1 dyDelta : Int) : Int → Nat → DProg
  | _, 0 => .done
  | dPos, y + 1 => dest.from dPos fun dpix =>
      loop (fun j _ => uniformPixel px dpix j) dx1 4 0 dx1.natAbs 0 0
        (drawUniformFunc px dest dx1 dyDelta (dPos + dyDelta) y)

/-! ## draw.go: splitting the rows -/

/-- draw.go:36-39, 66-69, 101-104: `n := runtime.GOMAXPROCS(0); for n > 1 && n<<1 > y { n-- }`. -/
def drawWorkers : Nat → Int → Nat
  | 0, _ => 0
  | n + 1, y => if n + 1 > 1 ∧ ((n : Int) + 1) * 2 > y then drawWorkers n y else n + 1

/-- draw.go:47-59: `i` goroutines of `step` rows each, and a last one for the rows that are left. -/
def spawn (f : Int → Int → Int → DProg) (dyDelta syDelta step : Int) : Nat → Int → Int → Int → List DProg
  | 0, d0, s0, y => [f d0 s0 y]
  | i + 1, d0, s0, y => f d0 s0 step :: spawn f dyDelta syDelta step i (d0 + dyDelta * step) (s0 + syDelta * step) (y - step)

/-- draw.go:35-61. The goroutines started; the call returns when all of them have. -/
def parallel (procs : Nat) (f : Int → Int → Int → DProg) (w : Walk) (y : Int) : List DProg :=
  let n := drawWorkers procs y
  if n = 1 then [f w.d0 w.s0 y]
  else spawn f w.dyDelta w.syDelta (y / n) (n - 1) w.d0 w.s0 y

/-- draw.go:77-88: the uniform kernels take a shortened slice. Reslicing past the end panics in the caller. -/
def spawnUniform (f : Sl → Int → DProg) (dyDelta step : Int) : Nat → Sl → Int → List DProg
  | 0, dest, y => [f dest y]
  | i + 1, dest, y =>
    f dest step ::
      (if 0 ≤ dyDelta * step ∧ dyDelta * step ≤ dest.len then
        spawnUniform f dyDelta step i ⟨dest.buf, dest.base + dyDelta * step, dest.len - dyDelta * step⟩ (y - step)
      else [.panic])

/-- draw.go:65-90. -/
def parallelUniform (procs : Nat) (f : Sl → Int → DProg) (dest : Sl) (dyDelta y : Int) : List DProg :=
  let n := drawWorkers procs y
  if n = 1 then [f dest y] else spawnUniform f dyDelta (y / n) (n - 1) dest y

/-- draw.go:113-126: the fallback's rows; `f pY spY mpY endY` walks from `pY` to `endY`. -/
def spawnFallback (f : Int → Int → Int → Int → DProg) (endY step : Int) : Nat → Int → Int → Int → List DProg
  | 0, pY, spY, mpY => [f pY spY mpY endY]
  | i + 1, pY, spY, mpY => f pY spY mpY (pY + step) :: spawnFallback f endY step i (pY + step) (spY + step) (mpY + step)

/-- draw.go:94-128. -/
def parallelFallback (procs : Nat) (f : Int → Int → Int → Int → DProg) (pY spY mpY endY d : Int) : List DProg :=
  let y := if d > 0 then endY - pY else pY - endY
  let n := drawWorkers procs y
  if n = 1 then [f pY spY mpY endY] else spawnFallback f endY (y / n * d) (n - 1) pY spY mpY

/-- One of the package's drawers. -/
structure Drawer where
  /-- `draw{NRGBA,RGBA}To{NRGBA,RGBA}` for one pixel. -/
  pix : (sk dk : PixKind) → (alpha : UInt32) → (s d : Px) → Res Px
  /-- `drawAlphaTo…`, if the drawer is an `alphaDrawer`. -/
  alphaPix : Option ((dk : PixKind) → (alpha : UInt32) → UInt8 → Px → Res Px)
  /-- `drawUniformTo…`, if the drawer is a `uniformDrawer`. -/
  uniPix : Option ((dk : PixKind) → (alpha : UInt32) → RGBA32 → Px → Res Px)
  /-- The fallback for one pixel, given the mask's alpha. -/
  fallback : (ma : UInt32) → (s d : RGBA32) → Res (Option RGBA32)
  /-- What the kernels are given for a mask of this alpha; without a mask they get `opacity 0xffff`. -/
  opacity : UInt32 → UInt32
  /-- Whether the fallback runs in several goroutines. -/
  parFallback : Bool

/-- The blend modes (zblends.go): they have no `drawAlpha…` and `drawUniform…`; `alpha >>= 8` (zblends.go:50). -/
def blendDrawer (F : FloatLum) (m : Mode) : Drawer where
  pix sk dk alpha s d := if sk = .nrgba ∧ dk = .nrgba then drawNN m alpha s d else draw16 F m sk dk alpha s d
  alphaPix := none
  uniPix := none
  fallback := drawFB F m
  opacity a := shr a 8
  parFallback := true

/-- `uint16` of each component. -/
def trunc16 (c : RGBA32) : RGBA32 := ⟨c.r &&& 0xffff, c.g &&& 0xffff, c.b &&& 0xffff, c.a &&& 0xffff⟩

/-- The Porter-Duff operators (zporterduffs.go). They offer `Draw` and not `DrawMask`: the mask is always nil, and the
opacity the kernels take is always 0xffff. -/
def pdDrawer (op : PD) : Drawer where
  pix sk dk _ s d := drawPD op dk (.px sk s) d
  alphaPix := some fun dk _ a d => drawPD op dk (.alpha a) d
  uniPix := some fun dk _ c d => drawPD op dk (.uniform c) d
  fallback ma s d := if ma = 0 then .ok none else .ok (some (trunc16 (pdOp op s d)))
  opacity a := a
  parFallback := false

/-- `draw{NRGBA,RGBA}To…Uniform` (zblends.go:45-118, zporterduffs.go:41-100). -/
def drawFour (D : Drawer) (procs : Nat) (dk : PixKind) (dst : Raw) (r : Rect) (sk : PixKind) (src : Raw) (spX spY : Int)
    (alpha : UInt32) : List DProg :=
  if alpha = 0 then []
  else
    let w := prepare 4 dst src r spX spY
    parallel procs (fun d0 s0 y => drawFunc 4 (fun bs d => D.pix sk dk alpha (Px.ofBytes bs) d) dst.pix src.pix w d0 s0 y.toNat) w r.dy

/-- The alpha byte of a source pixel. -/
def firstByte : List UInt8 → UInt8
  | b :: _ => b
  | [] => 0

/-- `drawAlphaTo…Uniform` (zporterduffs.go:101-130). -/
def drawAlpha (procs : Nat) (px : UInt8 → Px → Res Px) (dst : Raw) (r : Rect) (src : Raw) (spX spY : Int)
    (alpha : UInt32) : List DProg :=
  if alpha = 0 then []
  else
    let w := prepare 1 dst src r spX spY
    parallel procs (fun d0 s0 y => drawFunc 1 (fun bs d => px (firstByte bs) d) dst.pix src.pix w d0 s0 y.toNat) w r.dy

/-- `drawUniformTo…Uniform` (zporterduffs.go:131-175). -/
def drawUniform (procs : Nat) (px : Px → Res Px) (dst : Raw) (r : Rect) (alpha : UInt32) : List DProg :=
  if alpha = 0 then []
  else
    let o := dst.pixOffset 4 r.minX r.minY
    if 0 ≤ o ∧ o ≤ dst.pix.len then
      parallelUniform procs (fun dest y => drawUniformFunc px dest (r.dx * 4) dst.stride 0 y.toNat)
        ⟨dst.pix.buf, dst.pix.base + o, dst.pix.len - o⟩ dst.stride r.dy
    else [.panic]

/-- One pixel of a fallback (zblends.go:402-461, zporterduffs.go:413-433). The Porter-Duff fallbacks that do not need the
source or the destination do not read it; here they do. -/
def fallbackPixel (D : Drawer) (dst src : DImg) (mask : Option DImg) (x y sx sy mx my : Int) (k : DProg) : DProg :=
  let go (ma : UInt32) : DProg :=
    if ma = 0 then k
    else
      readAll (src.cells sx sy) fun sv => readAll (dst.cells x y) fun dv =>
        match D.fallback ma (src.dec sv) (dst.dec dv) with
        | .ok none => k
        | .ok (some c) => writeAll (dst.cells x y) (dst.enc c) k
        | _ => .panic
  match mask with
  | none => go 0xffff
  | some mi => readAll (mi.cells mx my) fun mv => go (mi.dec mv).a

/-- The loops of a fallback (zblends.go:402-461, zporterduffs.go:409-434). `spX - pX` is the same for every pixel: the
source (and mask) column is written as the offset from the destination column. -/
def fallbackFunc (D : Drawer) (dst src : DImg) (mask : Option DImg) (pX spX mpX endX d : Int) (pY spY mpY endY : Int) : DProg :=
  loop (fun y _ k =>
      loop (fun x _ k => fallbackPixel D dst src mask x y (spX + (x - pX)) (spY + (y - pY)) (mpX + (x - pX)) (mpY + (y - pY)) k)
        endX d 0 (endX - pX).natAbs pX 0 k)
    endY d 0 (endY - pY).natAbs pY 0 .done

/-- `drawFallback` (zblends.go:463-475, zporterduffs.go:401-435). -/
def drawFallback (D : Drawer) (procs : Nat) (same : Bool) (dst : DImg) (r : Rect) (src : DImg) (spX spY : Int)
    (mask : Option DImg) (mpX mpY : Int) : List DProg :=
  let back := processBackward same r spX spY
  let pX := if back then r.maxX - 1 else r.minX
  let pY := if back then r.maxY - 1 else r.minY
  let endX := if back then r.minX - 1 else r.maxX
  let endY := if back then r.minY - 1 else r.maxY
  let d : Int := if back then -1 else 1
  let ox := pX - r.minX
  let oy := pY - r.minY
  let f := fallbackFunc D dst src mask pX (spX + ox) (mpX + ox) endX d
  if D.parFallback then parallelFallback procs f pY (spY + oy) (mpY + oy) endY d
  else [f pY (spY + oy) (mpY + oy) endY]

/-- The `mask == nil` and `mask0 := mask.(type)` tests of draw.go:137-230 with the `alpha` the kernels' wrappers compute
from the mask (zblends.go:46-54). -/
def maskOpacity (D : Drawer) : Option DImg → Option UInt32
  | none => some (D.opacity 0xffff)
  | some (.uniform u) => some (D.opacity u.a)
  | some _ => none

/-- draw.go:130-234 `drawMask`: the goroutines that do the drawing. `procs` is `runtime.GOMAXPROCS(0)`; `same` says that
`dst` and `src` are the same pointer. -/
def drawMask (D : Drawer) (procs : Nat) (same : Bool) (dst : DImg) (r : Rect) (src : DImg) (spX spY : Int)
    (mask : Option DImg) (mpX mpY : Int) : List DProg :=
  let c := clip dst.bounds r src.bounds spX spY (mask.map DImg.bounds) mpX mpY
  if c.r.empty then []
  else
    let fb := drawFallback D procs same dst c.r src c.spX c.spY mask c.mpX c.mpY
    match maskOpacity D mask, dst with
    | some alpha, .four dk d =>
      match src with
      | .four sk s => drawFour D procs dk d c.r sk s c.spX c.spY alpha
      | .alpha s => match D.alphaPix with
        | some px => drawAlpha procs (px dk alpha) d c.r s c.spX c.spY alpha
        | none => fb
      | .uniform u => match D.uniPix with
        | some px => drawUniform procs (px dk alpha u) d c.r alpha
        | none => fb
      | .other _ => fb
    | _, _ => fb

end Psd
