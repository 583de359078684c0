import Verif.Model.Float
import Verif.Model.Numeric

/-!
# Filters in floating-point arithmetic

`iir_filter` (flut/filter.hpp:8-35), with `T` one of `float` and `double`. (`Model/Numeric.lean` has it in exact arithmetic; the
two share the arrays and their shifting.)
-/

namespace Flut

namespace FloatMath

variable (f : Fmt)

/-- The constructor (flut/filter.hpp:11) followed by setting the coefficients. -/
def iirNew (b0 : Flt) (b a : Nat → Flt) : Iir Flt := ⟨b0, b, a, fun _ => .fin false 0, fun _ => .fin false 0⟩

/-- The loop of flut/filter.hpp:14-15, with `n` rounds to go from `i`. -/
def iirSum (c : Iir Flt) : Nat → Nat → Flt → Flt
  | 0, _, y => y
  | n + 1, i, y => iirSum c n (i + 1) (f.add y (f.add (f.mul (c.b i) (c.x i)) (f.mul (c.a i) (c.y i))))

/-- `operator()( x )` (flut/filter.hpp:12-26): the value returned and the filter afterwards. -/
def iirStep (N : Nat) (c : Iir Flt) (x : Flt) : Flt × Iir Flt :=
  let y := iirSum f c N 0 (f.mul c.b0 x)
  (y, { c with x := Iir.setZero (Iir.shiftLoop (N - 1) c.x) x, y := Iir.setZero (Iir.shiftLoop (N - 1) c.y) y })

/-- The outputs for a sequence of inputs. -/
def iirRun (N : Nat) (c : Iir Flt) : List Flt → List Flt
  | [] => []
  | x :: xs => (iirStep f N c x).1 :: iirRun N (iirStep f N c x).2 xs

/-- The filter after a sequence of inputs. -/
def iirAfter (N : Nat) (c : Iir Flt) : List Flt → Iir Flt
  | [] => c
  | x :: xs => iirAfter N (iirStep f N c x).2 xs

/-- `velocity` (flut/filter.hpp:28): elements outside of the arrays are read if these have fewer than two. -/
def iirVelocity (N : Nat) (c : Iir Flt) : Res Flt := if N < 2 then .ub else .ok (f.sub (c.y 0) (c.y 1))

end FloatMath

end Flut
