import Verif.Model.Real
import Mathlib.Order.WithBot

/-!
# Floating-point arithmetic (IEEE 754)

The operations of `float` and `double` that flut uses, on the values of `Model/Real.lean`: exact result, rounded to nearest, ties to
even. Every operation is taken to be evaluated in the format of its operands. There is one kind of not-a-number that operations
give.
-/

namespace Flut

namespace Flt

/-- The real number a finite value stands for. -/
def val : Flt → ℚ
  | fin neg m => if neg then -m else m
  | _ => 0

/-- Sign bit. -/
def sgn : Flt → Bool
  | fin neg _ => neg
  | inf neg => neg
  | nan neg => neg

/-- Position on the line from minus to plus infinity; nothing for not-a-number. -/
def pos : Flt → Option (WithBot (WithTop ℚ))
  | fin neg m => some (((if neg then -m else m : ℚ) : WithTop ℚ) : WithBot (WithTop ℚ))
  | inf true => some ⊥
  | inf false => some ((⊤ : WithTop ℚ) : WithBot (WithTop ℚ))
  | nan _ => none

/-- The unary `-`. -/
def neg : Flt → Flt
  | fin s m => fin (!s) m
  | inf s => inf (!s)
  | nan s => nan (!s)

/-- `std::abs`. -/
def abs : Flt → Flt
  | fin _ m => fin false m
  | inf _ => inf false
  | nan _ => nan false

/-- `<`: false if either is not a number. -/
def lt : Flt → Flt → Bool
  | fin s m, fin s' m' => (if s then -m else m) < (if s' then -m' else m')
  | fin _ _, inf s => !s
  | inf s, fin _ _ => s
  | inf s, inf s' => s && !s'
  | _, _ => false

/-- `<=`. -/
def le : Flt → Flt → Bool
  | fin s m, fin s' m' => (if s then -m else m) ≤ (if s' then -m' else m')
  | fin _ _, inf s => !s
  | inf s, fin _ _ => s
  | inf s, inf s' => s || !s'
  | _, _ => false

/-- `fmod`, which is exact. -/
def fmod : Flt → Flt → Flt
  | fin s m, fin _ m' => if m' = 0 then nan false else fin s (m - m' * ⌊m / m'⌋)
  | fin s m, inf _ => fin s m
  | _, _ => nan false

end Flt

namespace Fmt

variable (f : Fmt)

/-- Rounding of a real number; `zero` is the sign of an exact zero. -/
def result (zero : Bool) (q : ℚ) : Flt :=
  let s := if q = 0 then zero else decide (q < 0)
  if f.maxVal < f.rnd |q| then .inf s else .fin s (f.rnd |q|)

/-- `+` -/
def add : Flt → Flt → Flt
  | .fin s m, .fin s' m' => f.result (s && s') ((if s then -m else m) + (if s' then -m' else m'))
  | .fin _ _, .inf s => .inf s
  | .inf s, .fin _ _ => .inf s
  | .inf s, .inf s' => if s = s' then .inf s else .nan false
  | _, _ => .nan false

/-- `-` -/
def sub (a b : Flt) : Flt := f.add a b.neg

/-- `*` -/
def mul : Flt → Flt → Flt
  | .fin s m, .fin s' m' => f.result (s != s') (if s != s' then -(m * m') else m * m')
  | .fin s m, .inf s' => if m = 0 then .nan false else .inf (s != s')
  | .inf s, .fin s' m' => if m' = 0 then .nan false else .inf (s != s')
  | .inf s, .inf s' => .inf (s != s')
  | _, _ => .nan false

/-- `/` -/
def div : Flt → Flt → Flt
  | .fin s m, .fin s' m' =>
    if m' = 0 then (if m = 0 then .nan false else .inf (s != s')) else f.result (s != s') (if s != s' then -(m / m') else m / m')
  | .fin s _, .inf s' => .fin (s != s') 0
  | .inf s, .fin s' _ => .inf (s != s')
  | _, _ => .nan false

/-- Conversion of a real number written in the program, or of a value of another format. -/
def ofRat (q : ℚ) : Flt := f.result false q

end Fmt

end Flut
