import Verif.Spec.FloatEuler
import Verif.Model.FloatHeading

/-! # Angles of points in a plane -/

namespace Flut.Spec

open Quaternion

/-- The distance of a point from the origin of its plane. -/
noncomputable def radius (x y : ℝ) : ℝ := Real.sqrt (x ^ 2 + y ^ 2)

/-- `θ` is an angle of the point `(x, y)`. Every number is an angle of the origin. -/
def AngleOf (x y θ : ℝ) : Prop := x = radius x y * Real.cos θ ∧ y = radius x y * Real.sin θ

/-- The point at the angle `t`, as far from the origin as `(x, y)` is, is at most `e` away from `(x, y)`. -/
def PointsTo (t x y e : ℝ) : Prop := (radius x y * Real.cos t - x) ^ 2 + (radius x y * Real.sin t - y) ^ 2 ≤ e ^ 2

/-- What is required of `atan2`: for finite arguments the result is within `k` units of the last place of 1 from an angle of the point,
between `-π` and `π`. (For the points with `y = 0` that are not right of the origin there are several, and the signs of zeros select one.) -/
def AccurateAngle (f : Fmt) (k : ℝ) (atan2 : Flt → Flt → Flt) : Prop :=
  ∀ y x b a, StandsReal f y b → StandsReal f x a → ∃ t θ, StandsReal f (atan2 y x) t ∧ AngleOf a b θ ∧ |θ| ≤ Real.pi ∧ |t - θ| ≤ k * (1 / 2 ^ f.prec)

/-- The three numbers stand for real numbers that are at most `e` away from the given ones. -/
def Near3 (f : Fmt) (v : Vec3 Flt) (a b c e : ℝ) : Prop :=
  ∃ x y z, StandsReal f v.x x ∧ StandsReal f v.y y ∧ StandsReal f v.z z ∧ |x - a| ≤ e ∧ |y - b| ≤ e ∧ |z - c| ≤ e

end Flut.Spec
