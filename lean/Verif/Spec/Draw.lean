import Verif.Model.Draw

/-!
# What drawing is supposed to do

Vocabulary for C48, C49 and C50. It names the images, their bytes and the kernels for a single pixel
(`blendDrawer`, `pdDrawer`), but nothing of the clipping, the loops or the goroutines.
-/

namespace Psd

/-- Whatever the scheduler does, the goroutines `ps` started on memory `m` neither panic nor get stuck nor run for ever,
and when all have returned the memory satisfies `post`. -/
def AllRuns {A V : Type} [DecidableEq A] (m : Mem A V) (ps : List (Prog A V)) (post : Mem A V → Prop) : Prop :=
  ∃ N, ∀ n c, Steps n (m, ps) c →
    n ≤ N ∧ Prog.panic ∉ c.2 ∧
    ((∀ p ∈ c.2, p = .done) ∨ ∃ c', Step c c') ∧
    ((∀ p ∈ c.2, p = .done) → post c.1)

/-- Every in-bounds pixel of an image of `n` bytes per pixel lies in its slice, and rows do not overlap. -/
def Raw.Ok (n : Nat) (im : Raw) : Prop :=
  im.rect.empty = false →
    im.rect.dx * n ≤ im.stride ∧ (im.rect.dy - 1) * im.stride + im.rect.dx * n ≤ im.pix.len

/-- No two pixels of the image share a byte, and a pixel's bytes are as many as its encoding has. -/
def AbsImg.Ok (o : AbsImg) : Prop :=
  ∀ x y, o.rect.Mem x y →
    (o.cells x y).Nodup ∧ (∀ c, (o.enc c).length = (o.cells x y).length) ∧
    ∀ x' y', o.rect.Mem x' y' → (x, y) ≠ (x', y') → ∀ a ∈ o.cells x y, a ∉ o.cells x' y'

def DImg.Ok : DImg → Prop
  | .four _ im => im.Ok 4
  | .alpha im => im.Ok 1
  | .uniform _ => True
  | .other o => o.Ok

/-- The images have no byte in common. -/
def Apart (a b : DImg) : Prop :=
  ∀ x y x' y', a.bounds.Mem x y → b.bounds.Mem x' y' → ∀ c ∈ a.cells x y, c ∉ b.cells x' y'

/-- The arguments of `DrawMask`; `mask = none` is a nil mask (and what `Draw` passes). -/
structure DrawCall where
  dst : DImg
  r : Rect
  src : DImg
  spX : Int
  spY : Int
  mask : Option DImg
  mpX : Int
  mpY : Int

namespace DrawCall

/-- The source point drawn at (x, y). -/
def srcX (c : DrawCall) (x : Int) : Int := x - c.r.minX + c.spX
def srcY (c : DrawCall) (y : Int) : Int := y - c.r.minY + c.spY
/-- The mask point used at (x, y). -/
def maskX (c : DrawCall) (x : Int) : Int := x - c.r.minX + c.mpX
def maskY (c : DrawCall) (y : Int) : Int := y - c.r.minY + c.mpY

/-- The points a draw may change: in `r`, in the destination, and such that the source and the mask have a pixel at the
same offset. -/
def Covers (c : DrawCall) (x y : Int) : Prop :=
  c.r.Mem x y ∧ c.dst.bounds.Mem x y ∧ c.src.bounds.Mem (c.srcX x) (c.srcY y) ∧
  ∀ mi, c.mask = some mi → mi.bounds.Mem (c.maskX x) (c.maskY y)

/-- The bytes of the source, mask and destination pixel that meet at (x, y). -/
def sBytes (c : DrawCall) (m : Mem Addr UInt8) (x y : Int) : List UInt8 := (c.src.cells (c.srcX x) (c.srcY y)).map m
def dBytes (c : DrawCall) (m : Mem Addr UInt8) (x y : Int) : List UInt8 := (c.dst.cells x y).map m
def mBytes (c : DrawCall) (m : Mem Addr UInt8) (x y : Int) : List UInt8 :=
  match c.mask with
  | none => []
  | some mi => (mi.cells (c.maskX x) (c.maskY y)).map m

/-- The alpha of the mask at (x, y). -/
def maskAlpha (c : DrawCall) (m : Mem Addr UInt8) (x y : Int) : UInt32 :=
  match c.mask with
  | none => 0xffff
  | some mi => (mi.dec (c.mBytes m x y)).a

/-- One pixel through the drawer's general kernel: colours as `At(x, y).RGBA()` returns them. -/
def general (c : DrawCall) (D : Drawer) (m : Mem Addr UInt8) (x y : Int) : Res (List UInt8) :=
  if c.maskAlpha m x y = 0 then .ok (c.dBytes m x y)
  else match D.fallback (c.maskAlpha m x y) (c.src.dec (c.sBytes m x y)) (c.dst.dec (c.dBytes m x y)) with
    | .ok none => .ok (c.dBytes m x y)
    | .ok (some v) => .ok (c.dst.enc v)
    | .err e => .err e
    | .panic p => .panic p
    | .fuel => .fuel

/-- One pixel through one of the drawer's special kernels, which are not called at all at opacity 0. -/
def special (c : DrawCall) (px : UInt32 → Px → Res Px) (alpha : UInt32) (m : Mem Addr UInt8) (x y : Int) : Res (List UInt8) :=
  if alpha = 0 then .ok (c.dBytes m x y)
  else match px alpha (Px.ofBytes (c.dBytes m x y)) with
    | .ok p => .ok p.bytes
    | .err e => .err e
    | .panic p => .panic p
    | .fuel => .fuel

/-- The opacity the special kernels work with, if the mask is nil or uniform. -/
def uniformOpacity (c : DrawCall) (D : Drawer) : Option UInt32 :=
  match c.mask with
  | none => some (D.opacity 0xffff)
  | some (.uniform u) => some (D.opacity u.a)
  | some _ => none

/-- The bytes the pixel at (x, y) should hold after drawing, from what memory `m` held before: which kernel applies
depends on the types of the images only. -/
def pixel (c : DrawCall) (D : Drawer) (m : Mem Addr UInt8) (x y : Int) : Res (List UInt8) :=
  match c.uniformOpacity D, c.dst, c.src with
  | some alpha, .four dk _, .four sk _ => c.special (fun al d => D.pix sk dk al (Px.ofBytes (c.sBytes m x y)) d) alpha m x y
  | some alpha, .four dk _, .alpha _ => match D.alphaPix with
    | some px => c.special (fun al d => px dk al (firstByte (c.sBytes m x y)) d) alpha m x y
    | none => c.general D m x y
  | some alpha, .four dk _, .uniform u => match D.uniPix with
    | some px => c.special (fun al d => px dk al u d) alpha m x y
    | none => c.general D m x y
  | _, _, _ => c.general D m x y

/-- Memory `m'` is memory `m` with the draw done: every covered pixel has the value computed from the source, mask and
destination pixels of `m`, and no other byte has changed. -/
def Drawn (c : DrawCall) (D : Drawer) (m m' : Mem Addr UInt8) : Prop :=
  (∀ x y, c.Covers x y → c.pixel D m x y = .ok (c.dBytes m' x y)) ∧
  ∀ a, (∀ x y, c.Covers x y → a ∉ c.dst.cells x y) → m' a = m a

/-- The kernel has a result for every pair of pixels that meet. -/
def Computes (c : DrawCall) (D : Drawer) (m : Mem Addr UInt8) : Prop :=
  ∀ x y, c.Covers x y → ∃ bs, c.pixel D m x y = .ok bs

/-- The goroutines of the call (`drawMask`). -/
def threads (c : DrawCall) (D : Drawer) (procs : Nat) (same : Bool) : List DProg :=
  drawMask D procs same c.dst c.r c.src c.spX c.spY c.mask c.mpX c.mpY

end DrawCall

end Psd
