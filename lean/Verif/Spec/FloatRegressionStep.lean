import Verif.Spec.FloatStat

/-! # Specification: linear regression with a fixed step in floating-point arithmetic -/

namespace Flut.Spec

/-- The `n` values of x that start at `x` and are `d` apart. -/
def positions (x d : ℚ) (n : Nat) : List ℚ := (List.range n).map fun i : Nat => x + i * d

/-- What a sum of `n` products of deviations from evenly spaced positions may be off by, for positions of at most `A` and values of at
most `B`. -/
def stepSumError (f : Fmt) (n A B : ℚ) : ℚ := n * (36 * (n * (1 / 2 ^ f.prec) * (A * B)) + 3 * (2 ^ f.emin * (A + B + 1)))

/-- What a slope over evenly spaced positions may be off by. -/
def stepSlopeError (f : Fmt) (p q : List ℚ) (A B : ℚ) : ℚ :=
  5 / 2 * (stepSumError f p.length A B / deviations (mean p) (mean p) p p) + 36 * (|slope p q| * (1 / 2 ^ f.prec)) + 2 ^ f.emin

end Flut.Spec
