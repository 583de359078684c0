import Verif.Model.FloatData
import Verif.Model.Numeric

/-! # Piecewise linear functions in floating-point arithmetic -/

namespace Flut

namespace FloatMath

variable (f : Fmt)

/-- `x_step` (flut/math/regular_piecewise_linear_function.hpp:16). The `int` is converted to `T`. -/
def gridStep (xMin xMax : Flt) (intervals : Nat) : Flt := f.div (f.sub xMax xMin) (f.ofRat intervals)

/-- The argument of the `i`th call of the function (flut/math/regular_piecewise_linear_function.hpp:22). -/
def gridNode (xMin xMax : Flt) (intervals i : Nat) : Flt := f.add xMin (f.mul (f.ofRat i) (gridStep f xMin xMax intervals))

/-- The constructor (flut/math/regular_piecewise_linear_function.hpp:14-23), for a positive number of intervals. `fn` includes the conversions
between `T` and `double`. -/
def gridNew (xMin xMax : Flt) (intervals : Nat) (fn : Flt → Flt) : Rplf Flt :=
  ⟨xMin, gridStep f xMin xMax intervals, (intervals : Int) + 1, (List.range (intervals + 1)).map fun i => fn (gridNode f xMin xMax intervals i)⟩

/-- `operator()` (flut/math/regular_piecewise_linear_function.hpp:25-33). The conversion to `int` is undefined for values that do not fit and for
those that are not finite. -/
def gridEval (r : Rplf Flt) (x : Flt) : Res Flt :=
  let idx := f.div (f.sub x r.base) r.step
  match idx with
  | .fin s m =>
    let i := ⌊if s then -m else m⌋
    if i < -2 ^ 31 ∨ i ≥ 2 ^ 31 then .ub
    else
      let lb := clampInt i 0 (r.points - 2)
      let w := f.sub idx (f.ofRat lb)
      if lb < 0 then .ub
      else match r.data[lb.toNat]?, r.data[(lb + 1).toNat]? with
        | some a, some b => .ok (lerp f w a b)
        | _, _ => .ub
  | _ => .ub

end FloatMath

end Flut
