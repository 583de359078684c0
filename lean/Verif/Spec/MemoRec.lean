import Verif.Model.MemoRec

/-!
# A function that calls itself, without memory
-/

namespace Flut.Spec

variable {A R : Type}

/-- The result of a body, with what the calls in it give. -/
def answers (g : A → Res R) : Body A R → Res R
  | .ret r => .ok r
  | .fail e => .throws e
  | .ask a k => do
    let r ← g a
    answers g (k r)

/-- The function with calls nested at most so deep. -/
def direct (f : A → Body A R) : Nat → A → Res R
  | 0, _ => .diverges
  | n + 1, a => answers (direct f n) (f a)

/-- The function ends for this argument with this result, or with this exception. -/
def Gives (f : A → Body A R) (a : A) (o : Res R) : Prop := o ≠ .diverges ∧ ∃ n, direct f n a = o

/-- `eqv` is an equivalence, and the function has the same results for equivalent arguments. -/
structure Respects (eqv : A → A → Bool) (f : A → Body A R) : Prop where
  refl : ∀ a, eqv a a
  symm : ∀ a b, eqv a b → eqv b a
  trans : ∀ a b c, eqv a b → eqv b c → eqv a c
  same : ∀ a b, eqv a b → ∀ o, Gives f a o → Gives f b o

end Flut.Spec
