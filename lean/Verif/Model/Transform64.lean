import Verif.Model.Transform
import Verif.Model.Float64

/-!
# /repo/composite/layer.go `transformRect`, in floating point

Rational numbers, rounded to 53 bits after each operation.
-/

namespace Psd

/-- layer.go:159: a corner under the matrix. -/
def Aff3.apply64 (m : Aff3) (x y : ℚ) : ℚ × ℚ :=
  (f64 (f64 (f64 (x * m.m0) + f64 (y * m.m1)) + m.m2), f64 (f64 (f64 (x * m.m3) + f64 (y * m.m4)) + m.m5))

/-- layer.go:160-164: the first corner. -/
def FBox.first64 (d : ℚ × ℚ) : FBox := ⟨d.1, d.2, f64 (d.1 + 1), f64 (d.2 + 1)⟩

/-- layer.go:165-179: the other corners. -/
def FBox.more64 (b : FBox) (d : ℚ × ℚ) : FBox :=
  ⟨if b.xMin > d.1 then d.1 else b.xMin, if b.yMin > d.2 then d.2 else b.yMin,
    if b.xMax < f64 (d.1 + 1) then f64 (d.1 + 1) else b.xMax, if b.yMax < f64 (d.2 + 1) then f64 (d.2 + 1) else b.yMax⟩

/-- layer.go:149-184 `transformRect`. Coordinates of less than 2 ^ 53 are floats. -/
def transformRect64 (r : Rect) (m : Aff3) : Rect :=
  let b := FBox.first64 (m.apply64 r.minX r.minY)
  let b := b.more64 (m.apply64 r.maxX r.minY)
  let b := b.more64 (m.apply64 r.maxX r.maxY)
  let b := b.more64 (m.apply64 r.minX r.maxY)
  ⟨⌊b.xMin⌋, ⌊b.yMin⌋, ⌈b.xMax⌉, ⌈b.yMax⌉⟩

end Psd
