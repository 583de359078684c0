import Verif.Model.PropNode
import Verif.Spec.Strings

/-! # Specifications for prop text

The trees of the model are used, but none of its functions. -/

namespace Flut.Spec

/-- A white space character. -/
def IsSpace (c : Byte) : Prop := c = 32 ∨ (9 ≤ c.toNat ∧ c.toNat ≤ 13)

instance (c : Byte) : Decidable (IsSpace c) := inferInstanceAs (Decidable (_ ∨ _))

/-- No white space at either end. -/
def Trimmed (s : Str) : Prop := (∀ c ∈ s.head?, ¬ IsSpace c) ∧ ∀ c ∈ s.getLast?, ¬ IsSpace c

instance (s : Str) : Decidable (Trimmed s) :=
  inferInstanceAs (Decidable ((∀ c ∈ s.head?, ¬ IsSpace c) ∧ ∀ c ∈ s.getLast?, ¬ IsSpace c))

/-- Characters with a meaning in prop text: `= { } % ; '`. -/
def Special (c : Byte) : Prop := c = 61 ∨ c = 123 ∨ c = 125 ∨ c = 37 ∨ c = 59 ∨ c = 39

instance (c : Byte) : Decidable (Special c) := inferInstanceAs (Decidable (_ ∨ _))

/-- Characters that force quoting: space and below, the double quote and the backslash. -/
def ForcesQuotes (c : Byte) : Prop := c.toNat ≤ 32 ∨ c = 34 ∨ c = 92

instance (c : Byte) : Decidable (ForcesQuotes c) := inferInstanceAs (Decidable (_ ∨ _))

/-- Strings that survive being written and read: 7-bit, trimmed, and with a special character only next to one
that forces quoting. -/
def Printable (s : Str) : Prop :=
  Ascii s ∧ Trimmed s ∧ ((∃ c ∈ s, ForcesQuotes c) ∨ ∀ c ∈ s, ¬ Special c)

instance (s : Str) : Decidable (Printable s) :=
  inferInstanceAs (Decidable (_ ∧ _ ∧ ((∃ c ∈ s, ForcesQuotes c) ∨ ∀ c ∈ s, ¬ Special c)))

/-- An ASCII letter. -/
def IsLetter (c : Byte) : Prop := (65 ≤ c.toNat ∧ c.toNat ≤ 90) ∨ (97 ≤ c.toNat ∧ c.toNat ≤ 122)

instance (c : Byte) : Decidable (IsLetter c) := inferInstanceAs (Decidable (_ ∨ _))

/-- Keys that survive: printable and starting with a letter. -/
def PrintableKey (k : Str) : Prop := Printable k ∧ ∃ c ∈ k.head?, IsLetter c

instance (k : Str) : Decidable (PrintableKey k) :=
  decidable_of_iff (Printable k ∧ (k.head?.any fun c => decide (IsLetter c)) = true) (by
    unfold PrintableKey
    cases k <;> simp)

/-- Trees that survive: every node has a value or children but not both, with printable keys and values. -/
inductive PrintableTree : PN → Prop
  | leaf {a v} : Printable v → PrintableTree (.mk a v [])
  | node {a cs} : cs ≠ [] → (∀ kn ∈ cs, PrintableKey kn.1) → (∀ kn ∈ cs, PrintableTree kn.2) →
      PrintableTree (.mk a [] cs)

/-- Two trees have the same values, keys and children; the access flags do not count. -/
inductive SameTree : PN → PN → Prop
  | mk {a b v cs ds} : cs.map Prod.fst = ds.map Prod.fst →
      (∀ p ∈ cs.zip ds, SameTree p.1.2 p.2.2) → SameTree (.mk a v cs) (.mk b v ds)

end Flut.Spec
