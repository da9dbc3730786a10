import Verif.Spec.Resample
import Verif.Spec.CTree
import Verif.Model.Thumbnail

/-!
# What a thumbnail should show
-/

namespace Psd

/-- The pixel `(x, y)` of a picture is seen. -/
def Visible (ts : Nat) (c : TileMap) (x y : Int) : Prop := (tilePixel ts 4 c x y).getD 3 0 ≠ 0

/-- Columns `x0` to `x1` and rows `y0` to `y1`, the last ones included, are the least that hold every point of `P`. -/
structure Box (P : Int → Int → Prop) (x0 y0 x1 y1 : Int) : Prop where
  inside : ∀ x y, P x y → x0 ≤ x ∧ x ≤ x1 ∧ y0 ≤ y ∧ y ≤ y1
  left : ∃ y, P x0 y
  right : ∃ y, P x1 y
  top : ∃ x, P x y0
  bottom : ∃ x, P x y1

/-- The size of a thumbnail for a picture of `w` by `h` pixels: the longer side is `size`, the other one in proportion, rounded down. -/
def InProportion (size w h : Nat) (d : Nat × Nat) : Prop :=
  (w > h ∧ d.1 = size ∧ d.2 * w ≤ h * size ∧ h * size < (d.2 + 1) * w) ∨ (w ≤ h ∧ d.2 = size ∧ d.1 * h ≤ w * size ∧ w * size < (d.1 + 1) * h)

/-- `sched` is an order in which goroutines may get to the layers that they are given: each layer once, and those of one goroutine in order. -/
def Interleaves {α : Type} (work : List (List α)) (sched : List α) : Prop := sched.Perm work.flatten ∧ ∀ w ∈ work, w.Sublist sched

/-- `ids` are the keys of the map `m`, in any order. -/
def Keys {α : Type} (m : Int → Option α) (ids : List Int) : Prop := ids.Nodup ∧ ∀ id, id ∈ ids ↔ ∃ t, m id = some t

/-- The pixel in column `i` and row `j` of a thumbnail; nothing outside. -/
def Thumb.pixel (t : Thumb) (i j : Int) : List UInt8 :=
  if 0 ≤ i ∧ i < t.w ∧ 0 ≤ j ∧ j < t.h then (List.range 4).map fun c => t.pix.getD (((j * t.w + i) * 4).toNat + c) 0 else List.replicate 4 0

end Psd
