import Mathlib.Algebra.BigOperators.Group.Finset.Basic
import Mathlib.Algebra.Order.Field.Rat
import Verif.Spec.Float

/-!
# Specification: how a recursive filter forgets
-/

namespace Flut

namespace Spec

open Finset

/-- Element `n - 1 - i` of a sequence, or zero before its begin. -/
def past (s : Nat → ℚ) (n i : Nat) : ℚ := if i < n then s (n - 1 - i) else 0

/-- `h` is what `y[n] = x[n] + a[0] * y[n - 1] + … + a[N - 1] * y[n - N]` gives for the input 1, 0, 0, … -/
def Response (N : Nat) (a h : Nat → ℚ) : Prop := ∀ n, h n = (if n = 0 then 1 else 0) + ∑ i ∈ range N, a i * past h n i

/-- The sizes of the elements of `h` add up to at most `G`. For the response of a filter: the filter is stable. -/
def SumAtMost (h : Nat → ℚ) (G : ℚ) : Prop := ∀ n, ∑ k ∈ range n, |h k| ≤ G

/-- An infinity or not a number. -/
def NotFinite (x : Flt) : Prop := ∀ q : ℚ, x.pos ≠ some ((q : WithTop ℚ) : WithBot (WithTop ℚ))

/-- Not a number. -/
def NotNumber (x : Flt) : Prop := x.pos = none

end Spec

end Flut
