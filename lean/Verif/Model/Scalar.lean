import Mathlib.Algebra.Order.Field.Basic
import Mathlib.Algebra.Order.Floor.Ring

/-!
# Scalar mathematics: `flut/math/math.hpp`, `flut/math/bounds.hpp`, `flut/math/angle.hpp`

Floating point numbers are modelled by an ordered field: arithmetic is exact and every operation returns, with `x / 0 = 0`;
theorems that involve a division say why the divisor is not zero. Integers are modelled as bit vectors.
-/

namespace Flut

/-! ## Integers -/

/-- `is_power_of_two` (flut/math/math.hpp:69) for an unsigned type of the given width. -/
def isPowerOfTwo {w : Nat} (v : BitVec w) : Bool := v != 0 && (v &&& (v - 1)) == 0

/-- `is_power_of_two` (flut/math/math.hpp:69) for a signed type of the given width, without promotion: `v - 1` overflows, with
undefined behaviour, on the least value. `none` is undefined behaviour. -/
def isPowerOfTwoSigned {w : Nat} (v : BitVec w) : Option Bool :=
  if v = 0 then some false else if v = BitVec.intMin w then none else some ((v &&& (v - 1)) == 0)

/-- `is_even` (flut/math/math.hpp:72). -/
def isEven {w : Nat} (v : BitVec w) : Bool := (v &&& 1) == 0

/-- `is_odd` (flut/math/math.hpp:73). -/
def isOdd {w : Nat} (v : BitVec w) : Bool := (v &&& 1) == 1

variable {K : Type} [Field K] [LinearOrder K]

/-! ## Clamping -/

/-- `set_if_smaller` (flut/math/math.hpp:63): the new value. -/
def setIfSmaller (value other : K) : K := if other < value then other else value

/-- `set_if_bigger` (flut/math/math.hpp:66): the new value. -/
def setIfBigger (value other : K) : K := if other > value then other else value

/-- `sign` (flut/math/math.hpp:60). -/
def signOf (v : K) : K := if v ≥ 0 then 1 else -1

/-- `equals` (flut/math/math.hpp:42). -/
def equalsRel (v1 v2 e : K) : Bool := |v1 - v2| ≤ |v1| * e

/-- `clamp`, `clamped` (flut/math/math.hpp:76-80): the value assigned and returned. -/
def clamp (v min max : K) : K := if v < min then min else if v > max then max else v

/-- `limit_transfer` (flut/math/math.hpp:83). -/
def limitTransfer (x limit : K) : K := limit - limit * limit / (x + limit)

/-- `soft_clamp`, `soft_clamped` (flut/math/math.hpp:86-94). -/
def softClamp (v min max boundary : K) : K :=
  let r := boundary * (max - min)
  if v > max - r then max - r + limitTransfer (v - max + r) r
  else if v < min + r then min + r - limitTransfer (min + r - v) r
  else v

/-- `is_between` (flut/math/math.hpp:108). -/
def isBetween (v min max : K) : Bool := v ≥ min && v ≤ max

/-- `bounds` (flut/math/bounds.hpp:7-30). -/
structure Bounds (K : Type) where
  lower : K
  upper : K
deriving DecidableEq

namespace Bounds

/-- `is_within` (flut/math/bounds.hpp:16). -/
def isWithin (b : Bounds K) (v : K) : Bool := v ≥ b.lower && v ≤ b.upper

/-- `range` (flut/math/bounds.hpp:17). -/
def range (b : Bounds K) : K := b.upper - b.lower

/-- `get_violation` (flut/math/bounds.hpp:20). -/
def getViolation (b : Bounds K) (v : K) : K :=
  if v < b.lower then v - b.lower else if v > b.upper then v - b.upper else 0

/-- `clamp` (flut/math/bounds.hpp:22). -/
def clampIn (b : Bounds K) (v : K) : K := clamp v b.lower b.upper

/-- `soft_clamp` (flut/math/bounds.hpp:23). -/
def softClampIn (b : Bounds K) (v boundary : K) : K := softClamp v b.lower b.upper boundary

/-- `operator-` (flut/math/bounds.hpp:26). -/
def neg (b : Bounds K) : Bounds K := ⟨-b.upper, -b.lower⟩

end Bounds

/-! ## Wrapping -/

section Floor

variable [FloorRing K]

/-- `fmod`: the quotient is rounded towards zero. -/
def fmod (a b : K) : K := a - (if a / b ≥ 0 then (⌊a / b⌋ : K) else (⌈a / b⌉ : K)) * b

/-- `wrap`, `wrapped` (flut/math/math.hpp:97-105). -/
def wrap (v lower upper : K) : K :=
  if v - lower ≥ 0 then fmod (v - lower) (upper - lower) + lower
  else fmod (v - lower) (upper - lower) + upper

/-- `square_wave` (flut/math/math.hpp:111). -/
def squareWave (v : K) : K := if fmod v 2 < 1 then 1 else -1

end Floor

/-! ## Angles -/

/-- `rad_to_deg` (flut/math/math.hpp:36); `pi` is `constants<T>::pi()`. -/
def radToDeg (pi v : K) : K := 180 / pi * v

/-- `deg_to_rad` (flut/math/math.hpp:39). -/
def degToRad (pi v : K) : K := pi / 180 * v

/-- `angle_unit` (flut/math/angle.hpp:12). -/
inductive AngleUnit where
  | degrees
  | radians
deriving DecidableEq

/-- `angle_converter` (flut/math/angle.hpp:14-21). -/
def convertAngle (pi : K) : AngleUnit → AngleUnit → K → K
  | .degrees, .radians, v => degToRad pi v
  | .radians, .degrees, v => radToDeg pi v
  | .degrees, .degrees, v => v
  | .radians, .radians, v => v

/-- `angle_` (flut/math/angle.hpp:23-76). -/
structure Angle (u : AngleUnit) (K : Type) where
  value : K
deriving DecidableEq

namespace Angle

variable {u : AngleUnit}

/-- The converting constructor and assignment (flut/math/angle.hpp:36,39), and `degree`, `radian` (lines 42-43). -/
def convert (pi : K) (a : Angle u K) (t : AngleUnit) : Angle t K := ⟨convertAngle pi u t a.value⟩

/-- `deg_value` (flut/math/angle.hpp:46). -/
def degValue (pi : K) (a : Angle u K) : K := convertAngle pi u .degrees a.value

/-- `rad_value` (flut/math/angle.hpp:47). -/
def radValue (pi : K) (a : Angle u K) : K := convertAngle pi u .radians a.value

/-- `operator+`, `operator+=` (flut/math/angle.hpp:56,106-108). -/
def add (a b : Angle u K) : Angle u K := ⟨a.value + b.value⟩

/-- `operator-`, `operator-=` (flut/math/angle.hpp:57,111-113). -/
def sub (a b : Angle u K) : Angle u K := ⟨a.value - b.value⟩

/-- Unary `operator-` (flut/math/angle.hpp:60). -/
def neg (a : Angle u K) : Angle u K := ⟨-a.value⟩

/-- `operator*` with a scalar (flut/math/angle.hpp:50-51,98-99). -/
def smul (s : K) (a : Angle u K) : Angle u K := ⟨a.value * s⟩

/-- `operator/` by a scalar (flut/math/angle.hpp:52-53). -/
def sdiv (a : Angle u K) (s : K) : Angle u K := ⟨a.value / s⟩

/-- `operator<` (flut/math/angle.hpp:64; the others alike). -/
def lt (a b : Angle u K) : Bool := a.value < b.value

/-- `operator==` (flut/math/angle.hpp:67). -/
def eq (a b : Angle u K) : Bool := a.value = b.value

end Angle

end Flut
