import Mathlib.Analysis.Normed.Module.Basic
import Mathlib.Analysis.Calculus.Deriv.Pow
import Mathlib.Analysis.Calculus.Deriv.Add
import Mathlib.Analysis.Calculus.Deriv.Mul

/-! # Specification: curves -/

namespace Flut.Spec

variable {P : Type} [NormedAddCommGroup P] [NormedSpace ℝ P]

/-- The cubic curve from `p` to `q` with velocity `m` at the beginning and `n` at the end. -/
def hermite (p q m n : P) (t : ℝ) : P :=
  (2 * t ^ 3 - 3 * t ^ 2 + 1) • p + (t ^ 3 - 2 * t ^ 2 + t) • m + (-2 * t ^ 3 + 3 * t ^ 2) • q + (t ^ 3 - t ^ 2) • n

/-- Velocity, at `q`, of a point that moves through `p`, `q`, `r` and takes times `d` and `e` in between: the slopes of both parts
minus that of the whole. -/
noncomputable def tangent (p q r : P) (d e : ℝ) : P := d⁻¹ • (q - p) - (d + e)⁻¹ • (r - p) + e⁻¹ • (r - q)

/-- Length of a polygon. -/
noncomputable def polygonLength (f : Nat → P) (n : Nat) : ℝ := ((List.range n).map fun i => dist (f i) (f (i + 1))).sum

end Flut.Spec
