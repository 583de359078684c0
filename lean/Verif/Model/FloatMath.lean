import Verif.Model.Float

/-!
# `flut/math/math.hpp` and `flut/math/bounds.hpp` in floating-point arithmetic

`T` is `float` or `double`. (Other files model the same functions in exact arithmetic.) `fmod` is taken to be the one for `T`.
-/

namespace Flut

namespace FloatMath

/-- `clamp`, `clamped` (flut/math/math.hpp:76-80); also `bounds::clamp` (flut/math/bounds.hpp:22). -/
def clamp (v min max : Flt) : Flt := if v.lt min then min else if max.lt v then max else v

/-- `set_if_smaller` (flut/math/math.hpp:63). -/
def setIfSmaller (value other : Flt) : Flt := if other.lt value then other else value

/-- `set_if_bigger` (flut/math/math.hpp:66). -/
def setIfBigger (value other : Flt) : Flt := if value.lt other then other else value

/-- `is_between` (flut/math/math.hpp:109); also `bounds::is_within` (flut/math/bounds.hpp:16). -/
def isBetween (v min max : Flt) : Bool := min.le v && v.le max

/-- `sign` (flut/math/math.hpp:60). -/
def sign (v : Flt) : Flt := if (Flt.fin false 0).le v then .fin false 1 else .fin true 1

variable (f : Fmt)

/-- `bounds::get_violation` (flut/math/bounds.hpp:20). -/
def getViolation (lower upper v : Flt) : Flt :=
  if v.lt lower then f.sub v lower else if upper.lt v then f.sub v upper else .fin false 0

/-- `wrap`, `wrapped` (flut/math/math.hpp:98-106). -/
def wrap (v lower upper : Flt) : Flt :=
  if (Flt.fin false 0).le (f.sub v lower) then f.add (Flt.fmod (f.sub v lower) (f.sub upper lower)) lower
  else f.add (Flt.fmod (f.sub v lower) (f.sub upper lower)) upper

/-- `limit_transfer` (flut/math/math.hpp:83). -/
def limitTransfer (x limit : Flt) : Flt := f.sub limit (f.div (f.mul limit limit) (f.add x limit))

/-- `soft_clamp`, `soft_clamped` (flut/math/math.hpp:86-94). -/
def softClamp (v min max boundary : Flt) : Flt :=
  let r := f.mul boundary (f.sub max min)
  if (f.sub max r).lt v then f.add (f.sub max r) (limitTransfer f (f.add (f.sub v max) r) r)
  else if v.lt (f.add min r) then f.sub (f.add min r) (limitTransfer f (f.sub (f.add min r) v) r)
  else v

/-- `square_wave` (flut/math/math.hpp:112). -/
def squareWave (v : Flt) : Flt := if (Flt.fmod v (.fin false 2)).lt (.fin false 1) then .fin false 1 else .fin true 1

/-- `relaxed_epsilon()` (flut/math/math.hpp:14-15): four times the distance from 1 to the next number. -/
def relaxedEpsilon : Flt := .fin false (4 * 2 ^ (1 - (f.prec : Int)))

/-- `equals` (flut/math/math.hpp:42). -/
def equals (v1 v2 e : Flt) : Bool := (f.sub v1 v2).abs.le (f.mul v1.abs e)

/-- `constants< T >::pi()` (flut/math/math.hpp:11): a literal of type `double`, converted to `T`. -/
def pi : Flt := f.ofRat (Fmt.double.ofRat 3.14159265358979).val

/-- `half_pi()` (flut/math/math.hpp:12). -/
def halfPi : Flt := f.mul (.fin false (1 / 2)) (pi f)

/-- `two_pi()` (flut/math/math.hpp:13). -/
def twoPi : Flt := f.mul (.fin false 2) (pi f)

/-- `rad_to_deg` (flut/math/math.hpp:36). -/
def radToDeg (x : Flt) : Flt := f.mul (f.div (.fin false 180) (pi f)) x

/-- `deg_to_rad` (flut/math/math.hpp:39). -/
def degToRad (x : Flt) : Flt := f.mul (f.div (pi f) (.fin false 180)) x

end FloatMath

end Flut
