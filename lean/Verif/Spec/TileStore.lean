import Verif.Model.Tiles
import Verif.Spec.Grid

/-!
# What a tiled picture and a tiled mask should hold
-/

namespace Psd

/-- The byte of the channel `ch` for the pixel `(x, y)` of `rect`: rows one after another, `dX` bytes from pixel to pixel. -/
def channelAt (rect : Rect) (dX : Nat) (ch : List UInt8) (x y : Int) : UInt8 :=
  ch.getD ((((y - rect.minY) * rect.dx + (x - rect.minX)) * dX).toNat) 0

/-- The colour of a layer's picture at `(x, y)`, red, green, blue, alpha; nothing outside it and where it is transparent. -/
def pictureAt (rect : Rect) (dX : Nat) (r g b : List UInt8) (a : Option (List UInt8)) (x y : Int) : Option (List UInt8) :=
  if rect.minX ≤ x ∧ x < rect.maxX ∧ rect.minY ≤ y ∧ y < rect.maxY then
    let alpha := match a with
      | none => 255
      | some a => channelAt rect dX a x y
    if alpha = 0 then none
    else some [channelAt rect dX r x y, channelAt rect dX g x y, channelAt rect dX b x y, alpha]
  else none

/-- The channel has a byte for every pixel of `rect`. -/
def Fills (rect : Rect) (dX : Nat) (ch : List UInt8) : Prop :=
  ∀ x y, rect.minX ≤ x → x < rect.maxX → rect.minY ≤ y → y < rect.maxY →
    ((y - rect.minY) * rect.dx + (x - rect.minX)) * dX < ch.length

/-- The value of a mask at `(x, y)`: the default colour outside its rectangle. -/
def maskAt (rect : Rect) (a : List UInt8) (default : UInt8) (x y : Int) : UInt8 :=
  if rect.minX ≤ x ∧ x < rect.maxX ∧ rect.minY ≤ y ∧ y < rect.maxY then channelAt rect 1 a x y else default

/-- The part of a layer's picture that is not before the first grid line after a negative edge. On the canvas it is the whole picture
(`cutPictureAt_canvas`). -/
def cutPictureAt (ts : Nat) (rect : Rect) (dX : Nat) (r g b : List UInt8) (a : Option (List UInt8)) (x y : Int) : Option (List UInt8) :=
  if rect.Keeps ts x y then pictureAt rect dX r g b a x y else none

/-- The value of a mask if the pixels before the first grid line after a negative edge count as outside. On the canvas it is that of the mask
(`cutMaskAt_canvas`). -/
def cutMaskAt (ts : Nat) (rect : Rect) (a : List UInt8) (default : UInt8) (x y : Int) : UInt8 :=
  if rect.Keeps ts x y then channelAt rect 1 a x y else default

theorem cutPictureAt_canvas {ts : Nat} {rect : Rect} {dX : Nat} {r g b : List UInt8} {a : Option (List UInt8)} {x y : Int} (hx : 0 ≤ x) (hy : 0 ≤ y) :
    cutPictureAt ts rect dX r g b a x y = pictureAt rect dX r g b a x y := by
  unfold cutPictureAt
  by_cases h : rect.Mem x y
  · rw [if_pos (Rect.keeps_of_canvas h hx hy)]
  · rw [if_neg fun k => h k.1]
    unfold Rect.Mem at h
    unfold pictureAt
    rw [if_neg h]

theorem cutMaskAt_canvas {ts : Nat} {rect : Rect} {a : List UInt8} {default : UInt8} {x y : Int} (hx : 0 ≤ x) (hy : 0 ≤ y) :
    cutMaskAt ts rect a default x y = maskAt rect a default x y := by
  unfold cutMaskAt maskAt
  by_cases h : rect.Mem x y
  · rw [if_pos (Rect.keeps_of_canvas h hx hy)]
    unfold Rect.Mem at h
    rw [if_pos h]
  · rw [if_neg fun k => h k.1]
    unfold Rect.Mem at h
    rw [if_neg h]

/-- `out` is the pixel `d` with its alpha multiplied by `m / 255`: the alpha is off by less than one level and, unless the
pixel vanishes, each colour by at most three. -/
def MaskedBy (m : UInt8) (d out : Px) : Prop :=
  255 * out.a.toNat < d.a.toNat * m.toNat + 255 ∧ d.a.toNat * m.toNat < 255 * out.a.toNat + 255 ∧
  (out.a ≠ 0 → ∀ x y, (x, y) ∈ [(d.r, out.r), (d.g, out.g), (d.b, out.b)] → y.toNat ≤ x.toNat + 1 ∧ x.toNat ≤ y.toNat + 3)

end Psd
