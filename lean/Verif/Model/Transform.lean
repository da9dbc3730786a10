import Verif.Model.Basic
import Mathlib.Data.Rat.Floor

/-!
# /repo/composite/layer.go `transformRect`

Simplification: the coordinates of the matrix are rational numbers and the arithmetic is exact, where Go computes with
64-bit floating point (Model/Transform64.lean).
-/

namespace Psd

/-- `f64.Aff3`: `x ↦ m0 x + m1 y + m2`, `y ↦ m3 x + m4 y + m5`. -/
structure Aff3 where
  m0 : ℚ
  m1 : ℚ
  m2 : ℚ
  m3 : ℚ
  m4 : ℚ
  m5 : ℚ

/-- The box of layer.go:156-180: `xMin, yMin, xMax, yMax`. -/
structure FBox where
  xMin : ℚ
  yMin : ℚ
  xMax : ℚ
  yMax : ℚ

/-- layer.go:159: a corner under the matrix. -/
def Aff3.apply (m : Aff3) (x y : ℚ) : ℚ × ℚ := (x * m.m0 + y * m.m1 + m.m2, x * m.m3 + y * m.m4 + m.m5)

/-- layer.go:160-164: the first corner. -/
def FBox.first (d : ℚ × ℚ) : FBox := ⟨d.1, d.2, d.1 + 1, d.2 + 1⟩

/-- layer.go:165-179: the other corners. -/
def FBox.more (b : FBox) (d : ℚ × ℚ) : FBox :=
  ⟨if b.xMin > d.1 then d.1 else b.xMin, if b.yMin > d.2 then d.2 else b.yMin,
    if b.xMax < d.1 + 1 then d.1 + 1 else b.xMax, if b.yMax < d.2 + 1 then d.2 + 1 else b.yMax⟩

/-- layer.go:149-184 `transformRect`. -/
def transformRect (r : Rect) (m : Aff3) : Rect :=
  let b := FBox.first (m.apply r.minX r.minY)
  let b := b.more (m.apply r.maxX r.minY)
  let b := b.more (m.apply r.maxX r.maxY)
  let b := b.more (m.apply r.minX r.maxY)
  ⟨⌊b.xMin⌋, ⌊b.yMin⌋, ⌈b.xMax⌉, ⌈b.yMax⌉⟩

end Psd
