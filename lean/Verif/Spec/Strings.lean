import Verif.Basic

/-! # Specifications for the string helpers

These definitions do not refer to the model. -/

namespace Flut.Spec

/-- `r` is what remains of `s` after removing characters satisfying `p` from both ends:
only `p`-characters were removed and neither end of `r` is one. -/
def IsTrim (p : Byte → Prop) (s r : Str) : Prop :=
  ∃ a b, s = a ++ r ++ b ∧ (∀ c ∈ a, p c) ∧ (∀ c ∈ b, p c) ∧
    (∀ c ∈ r.head?, ¬ p c) ∧ (∀ c ∈ r.getLast?, ¬ p c)

/-- As `IsTrim`, for the right end only. -/
def IsTrimRight (p : Byte → Prop) (s r : Str) : Prop :=
  ∃ b, s = r ++ b ∧ (∀ c ∈ b, p c) ∧ (∀ c ∈ r.getLast?, ¬ p c)

/-- `Pieces p s ps`: `ps` are the maximal runs of non-`p` characters of `s`, in order. -/
inductive Pieces (p : Byte → Prop) : Str → List Str → Prop
  | done {s} : (∀ c ∈ s, p c) → Pieces p s []
  | piece {a r rest ps} : (∀ c ∈ a, p c) → r ≠ [] → (∀ c ∈ r, ¬ p c) →
      (∀ c ∈ rest.head?, p c) → Pieces p rest ps → Pieces p (a ++ r ++ rest) (r :: ps)

/-- All characters are 7-bit and none is NUL. -/
def Ascii (s : Str) : Prop := ∀ c ∈ s, 1 ≤ c.toNat ∧ c.toNat ≤ 127

instance (s : Str) : Decidable (Ascii s) := inferInstanceAs (Decidable (∀ c ∈ s, _))

/-- `t` occurs in `s` at position `i`. -/
def OccursAt (t s : Str) (i : Nat) : Prop := ∃ a b, s = a ++ t ++ b ∧ a.length = i

end Flut.Spec
