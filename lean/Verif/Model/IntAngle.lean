import Verif.Basic
import Verif.Model.Scalar
import Mathlib.Analysis.SpecialFunctions.Trigonometric.Basic

/-!
# Angles whose values are of type `int`

`deg( 90 )` and `rad( 1 )` have the type of their argument, so that these are angles of type `int`. Real numbers are exact here.
-/

namespace Flut

namespace IntAngle

/-- The result of an operation on `int`: overflow is undefined. -/
def int32 (x : Int) : Res Int := if -2 ^ 31 ≤ x ∧ x < 2 ^ 31 then .ok x else .ub

/-- `int( x )` of a real number: cut off towards zero, undefined out of range. -/
noncomputable def cut (x : ℝ) : Res Int := int32 (if 0 ≤ x then ⌊x⌋ else ⌈x⌉)

/-- `constants< int >::pi()` (flut/math/math.hpp:11). -/
def pi : Int := 3

/-- `rad_to_deg< int >` (flut/math/math.hpp:36). -/
def radToDeg (v : Int) : Res Int := int32 (Int.tdiv 180 pi * v)

/-- `deg_to_rad< int >` (flut/math/math.hpp:39). -/
def degToRad (v : Int) : Res Int := int32 (Int.tdiv pi 180 * v)

/-- `angle_converter` for `int` (flut/math/angle.hpp:14-21), hence `deg_value`, `rad_value`, `degree`, `radian` (42-47). -/
def convert : AngleUnit → AngleUnit → Int → Res Int
  | .degrees, .radians, v => degToRad v
  | .radians, .degrees, v => radToDeg v
  | .degrees, .degrees, v => .ok v
  | .radians, .radians, v => .ok v

/-- An angle of a real type from one of type `int` (flut/math/angle.hpp:36 and 39): the value is converted to the real type first. -/
noncomputable def toReal (p : ℝ) (u t : AngleUnit) (v : Int) : ℝ := convertAngle p u t (v : ℝ)

/-- An angle of type `int` from one of a real type (flut/math/angle.hpp:36 and 39): the value is cut off first. -/
noncomputable def ofReal (u t : AngleUnit) (x : ℝ) : Res Int := do
  let v ← cut x
  convert u t v

/-- `*` with a real number (flut/math/angle.hpp:51 and 98-99). -/
noncomputable def scale (v : Int) (s : ℝ) : Res Int := do
  let k ← cut s
  int32 (v * k)

/-- `/` by a real number (flut/math/angle.hpp:53). -/
noncomputable def divide (v : Int) (s : ℝ) : Res Int := do
  let k ← cut s
  if k = 0 then .ub else int32 (Int.tdiv v k)

/-- `+` of angles with the same unit (flut/math/angle.hpp:106-108). -/
def add (v w : Int) : Res Int := int32 (v + w)

/-- `sin` (flut/math/angle.hpp:116): the result has the type of the angle. -/
noncomputable def sin (u : AngleUnit) (v : Int) : Res Int := do
  let r ← convert u .radians v
  cut (Real.sin r)

/-- `cos` (flut/math/angle.hpp:117). -/
noncomputable def cos (u : AngleUnit) (v : Int) : Res Int := do
  let r ← convert u .radians v
  cut (Real.cos r)

/-- `<` of an angle of type `int` and one of a real type (flut/math/angle.hpp:64), which is converted to the type and unit of the first. -/
noncomputable def lt (u t : AngleUnit) (v : Int) (x : ℝ) : Res Bool := do
  let w ← ofReal t u x
  .ok (decide (v < w))

end IntAngle

end Flut
