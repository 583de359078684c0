import Mathlib.Data.Rat.Defs
import Mathlib.Algebra.Order.Ring.Rat

/-! # Catmull-Rom curves -/

namespace Flut.Spec

/-- The cubic that runs from `p1` to `p2` with slope half the distance of the neighbours at each end: the Catmull-Rom curve, as a
Hermite interpolation. -/
def catmullRom (p0 p1 p2 p3 t : ℚ) : ℚ :=
  (2 * t ^ 3 - 3 * t ^ 2 + 1) * p1 + (t ^ 3 - 2 * t ^ 2 + t) * ((p2 - p0) / 2) +
    (-2 * t ^ 3 + 3 * t ^ 2) * p2 + (t ^ 3 - t ^ 2) * ((p3 - p1) / 2)

end Flut.Spec
