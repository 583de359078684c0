import Mathlib.Algebra.Order.Field.Rat
import Verif.Spec.Float
import Verif.Model.Data

/-!
# Specification: means, covariance and regression
-/

namespace Flut

namespace Spec

/-- The mean of some numbers. -/
def mean (p : List ℚ) : ℚ := p.sum / p.length

/-- The sum of the products of the deviations from `a` and `b`. -/
def deviations (a b : ℚ) (p q : List ℚ) : ℚ := (List.zipWith (fun x y => (x - a) * (y - b)) p q).sum

/-- The covariance of two series: the mean of the products of their deviations from their means. -/
def covariance (p q : List ℚ) : ℚ := deviations (mean p) (mean q) p q / p.length

/-- The slope of the line of least squares. -/
def slope (p q : List ℚ) : ℚ := deviations (mean p) (mean q) p q / deviations (mean p) (mean p) p p

/-- Where the line of least squares crosses zero. -/
def intercept (p q : List ℚ) : ℚ := mean q - slope p q * mean p

/-- What a sum of `n` products of deviations may be off by, for values of at most `A` and `B`. -/
def deviationError (f : Fmt) (n A B : ℚ) : ℚ := n * (22 * (n * (1 / 2 ^ f.prec) * (A * B)) + 2 * (2 ^ f.emin * (A + B + 1)))

/-- What a slope may be off by: little if the values are spread over more than their rounding errors. -/
def slopeError (f : Fmt) (p q : List ℚ) (A B : ℚ) : ℚ :=
  5 / 2 * ((deviationError f p.length A B + |slope p q| * deviationError f p.length A A) / deviations (mean p) (mean p) p p) +
    |slope p q| * (1 / 2 ^ f.prec) + 2 ^ f.emin

/-- Channel `c` of a storage holds the values `v`, one in each frame. -/
def Channel {α L : Type} [DecidableEq L] (s : Storage α L) (c : Nat) (v : List α) : Prop :=
  v.length = s.frames ∧ ∀ r x, v[r]? = some x → s.get r c = .ok x

end Spec

end Flut
