import Verif.Basic

/-!
# Wrapping whole numbers to a range

`wrap` (flut/math/math.hpp:97-105) for `int` and `unsigned int`. `fmod` and the sum behind it are of type `double`, in which all numbers of
32 bits and their sums are exact.
-/

namespace Flut

namespace IntWrap

/-- The result of an operation on `int`, or of a conversion to it: undefined out of range. -/
def chk (x : Int) : Res Int := if -2 ^ 31 ≤ x ∧ x < 2 ^ 31 then .ok x else .ub

/-- `wrap`, `wrapped` for `int` (flut/math/math.hpp:97-105). `fmod` by 0 is not a number, whose conversion to `int` is undefined. -/
def wrapInt (v lower upper : Int) : Res Int := do
  let d ← chk (v - lower)
  let w ← chk (upper - lower)
  if w = 0 then .ub
  else if d ≥ 0 then chk (Int.tmod d w + lower)
  else chk (Int.tmod d w + upper)

/-- `wrap`, `wrapped` for `unsigned int` (flut/math/math.hpp:97-105): differences are without sign, so that the condition always holds. -/
def wrapUnsigned (v lower upper : Nat) : Res Nat :=
  let d := (v + (2 ^ 32 - lower)) % 2 ^ 32
  let w := (upper + (2 ^ 32 - lower)) % 2 ^ 32
  if w = 0 then .ub
  else if d % w + lower < 2 ^ 32 then .ok (d % w + lower) else .ub

end IntWrap

end Flut
