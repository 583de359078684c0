import Verif.Model.FloatStat

/-!
# Linear regression with a fixed step in floating-point arithmetic

The second overload of `flut/math/linear_regression.hpp`, with `T` one of `float` and `double`.
(`Model/Numeric.lean` has it in exact arithmetic.)
-/

namespace Flut

namespace FloatMath

variable (f : Fmt)

/-- The loop of `linear_regression` with a fixed step (flut/math/linear_regression.hpp:40-41): the position is stepped on in `T`. -/
def regressionStepLoop (avgx avgy step : Flt) : List Flt → Flt → Flt → Flt
  | [], _, num => num
  | y :: l, x, num => regressionStepLoop avgx avgy step l (f.add x step) (f.add num (f.mul (f.sub x avgx) (f.sub y avgy)))

/-- `T( n - 1 )` in `linear_regression` with a fixed step (flut/math/linear_regression.hpp:36, 42): `n - 1` is a `size_t`, of 64 bits here,
and wraps around for `n = 0`. -/
def sizeLessOne (n : Nat) : Flt := f.ofRat ((n + (2 ^ 64 - 1)) % 2 ^ 64 : Nat)

/-- `linear_regression` with a fixed step (flut/math/linear_regression.hpp:31-46). -/
def linearRegressionStep (xBegin xStep : Flt) (cy : List Flt) : Linear Flt :=
  let n := cy.length
  let avgx := f.add xBegin (f.div (f.mul (sizeLessOne f n) xStep) (f.ofRat 2))
  let avgy := average f cy
  let num := regressionStepLoop f avgx avgy xStep cy xBegin (.fin false 0)
  let hsiz := f.div (f.mul (sizeLessOne f n) xStep) (f.ofRat 2)
  let den := f.div (f.mul (f.mul hsiz (f.add hsiz xStep)) (f.add (f.mul (f.ofRat 2) hsiz) xStep)) (f.mul (f.ofRat 3) xStep)
  let slope := f.div num den
  ⟨f.sub avgy (f.mul slope avgx), slope⟩

end FloatMath

end Flut
