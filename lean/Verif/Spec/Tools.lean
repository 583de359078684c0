import Verif.Basic
import Mathlib.Algebra.BigOperators.Group.List.Basic
import Mathlib.Data.List.Sort
import Mathlib.Algebra.Order.Field.Basic

/-!
# Specifications for container statistics
-/

namespace Flut

/-- `x` is the `k`-th smallest (from 0) element of `v`, counted with multiplicity: at most `k` elements are smaller and more
than `k` are not larger. -/
def IsKth {K : Type} [LinearOrder K] (v : List K) (k : Nat) (x : K) : Prop :=
  x ∈ v ∧ v.countP (· < x) ≤ k ∧ k < v.countP (· ≤ x)

/-- `small` is a choice of the `n` smallest elements of `v`. -/
def Smallest {K : Type} [LinearOrder K] (v : List K) (n : Nat) (small : List K) : Prop :=
  small.length = n ∧ ∃ rest, (small ++ rest).Perm v ∧ ∀ a ∈ small, ∀ b ∈ rest, a ≤ b

/-- What the C++ standard promises about `std::sort( first, last, comp )` when `comp` is a strict weak order on the elements:
the result is a permutation of the input in which no later element is less than an earlier one. -/
def SortContract (sort : (Nat → Nat → Bool) → List Nat → List Nat) : Prop :=
  ∀ (lt : Nat → Nat → Bool) (l : List Nat), (∀ a ∈ l, lt a a = false) →
    (∀ a ∈ l, ∀ b ∈ l, ∀ c ∈ l, lt a b = true → lt b c = true → lt a c = true) →
    (∀ a ∈ l, ∀ b ∈ l, ∀ c ∈ l, lt a b = false → lt b c = false → lt a c = false) →
    (sort lt l).Perm l ∧ (sort lt l).Pairwise (fun a b => lt b a = false)

end Flut
