import Mathlib.Algebra.Order.Floor.Ring
import Mathlib.Data.Rat.Floor

/-! # Specification: piecewise linear functions -/

namespace Flut.Spec

/-- The piecewise linear function with the values `d 0`, ..., `d n` at 0, ..., `n`, continued linearly. -/
def piecewise (n : Nat) (d : Nat → ℚ) (t : ℚ) : ℚ :=
  let i := min ⌊t⌋.toNat (n - 1)
  d i + (t - i) * (d (i + 1) - d i)

end Flut.Spec
