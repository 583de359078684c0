import Verif.Spec.Real

/-! # Specifications for real numbers in C++ streams

These definitions do not refer to the model. -/

namespace Flut.Spec

/-- `x ≥ 0` can be written with at most six digits and a number of places by which the point is moved. -/
def SixDigits (x : ℚ) : Prop := ∃ (n : Nat) (k : Int), n < 1000000 ∧ x = n * 10 ^ k

/-- No digit of the decimal number `w` can be left out: the part before the exponent does not end in a point, nor in a zero if it has a
point, and it begins with a zero only if the number is below one. -/
def Concise (w : Str) (x : ℚ) : Prop :=
  ∃ a e, w = a ++ e ∧ (e = [] ∨ e.head? = some c!"e") ∧ c!"e" ∉ a ∧ (c!"." ∈ a → a.getLast? ≠ some c!"." ∧ a.getLast? ≠ some c!"0") ∧
    (a.head? = some c!"0" → x < 1)

end Flut.Spec
