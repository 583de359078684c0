import Verif.Spec.Real
import Verif.Model.Float

/-! # Specifications for floating-point numbers -/

namespace Flut.Spec

/-- A value of the format: a binary fraction up to the largest one, an infinity or not a number. -/
def IsFloat (f : Fmt) : Flt → Prop
  | .fin _ m => 0 ≤ m ∧ m ≤ f.maxVal ∧ IsBinary f.prec f.emin m
  | _ => True

/-- A number: finite or infinite. -/
def IsNumber (x : Flt) : Prop := ∃ p, x.pos = some p

/-- `x` is a finite value of the format that stands for `q`. -/
def Stands (f : Fmt) (x : Flt) (q : ℚ) : Prop := IsFloat f x ∧ x.pos = some ((q : WithTop ℚ) : WithBot (WithTop ℚ))

/-- Order of numbers; it does not hold if either is not a number. -/
def Below (a b : Flt) : Prop := ∃ x y, a.pos = some x ∧ b.pos = some y ∧ x < y

/-- Order of numbers, or equality of position. -/
def AtMost (a b : Flt) : Prop := ∃ x y, a.pos = some x ∧ b.pos = some y ∧ x ≤ y

end Flut.Spec
