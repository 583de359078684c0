import Verif.Spec.PropText

/-! # Specifications for loading and saving a prop document again -/

namespace Flut.Spec

/-- Text of a tree that saving keeps apart from the characters with a meaning: 7-bit, and with a special character only
next to one that forces quoting. -/
def Clean (s : Str) : Prop := Ascii s ∧ ((∃ c ∈ s, ForcesQuotes c) ∨ ∀ c ∈ s, ¬ Special c)

instance (s : Str) : Decidable (Clean s) := inferInstanceAs (Decidable (_ ∧ ((∃ c ∈ s, ForcesQuotes c) ∨ ∀ c ∈ s, ¬ Special c)))

/-- Every key and every value of a tree is of a given kind. -/
inductive AllText (P : Str → Prop) : PN → Prop
  | mk {a v cs} : P v → (∀ kn ∈ cs, P kn.1) → (∀ kn ∈ cs, AllText P kn.2) → AllText P (.mk a v cs)

/-- One of the signs that stand for themselves: `=`, `{` and `}`. -/
def Sign (s : Str) : Prop := s = [61] ∨ s = [123] ∨ s = [125]

instance (s : Str) : Decidable (Sign s) := inferInstanceAs (Decidable (_ ∨ _))

end Flut.Spec
