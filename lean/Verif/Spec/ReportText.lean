import Verif.Spec.Real

/-! # Specification of numbers in columns

This definition does not refer to the model. -/

namespace Flut.Spec

/-- The text shows the number `v` with `p` digits after the point, and without a point if `p = 0`: blanks, perhaps a minus sign, digits without useless
zeros in front. It has at least `w` characters, and exactly `w` if there are blanks. -/
def Column (w p : Nat) (s : Str) (v : ℚ) : Prop :=
  ∃ (k : Nat) (neg : Bool) (a b : Str), s = List.replicate k c!" " ++ (if neg then b!"-" else []) ++ a ++ (if p = 0 then [] else c!"." :: b) ∧
    IsDigits a ∧ (a.head? = some c!"0" → a = b!"0") ∧ (∀ d ∈ b, 48 ≤ d.toNat ∧ d.toNat ≤ 57) ∧ b.length = p ∧
    v = (if neg then -1 else 1) * (decValue (a ++ b) / 10 ^ p) ∧ w ≤ s.length ∧ (0 < k → s.length = w)

end Flut.Spec
