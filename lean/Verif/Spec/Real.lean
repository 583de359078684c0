import Verif.Spec.Text
import Mathlib.Data.Rat.Cast.Order
import Mathlib.Algebra.Order.Field.Power

/-! # Specifications for real numbers as text

These definitions do not refer to the model. -/

namespace Flut.Spec

/-- `x` is an integer below `2^p` in magnitude, times a power of two that is at least `2^emin`. -/
def IsBinary (p : Nat) (emin : Int) (x : ℚ) : Prop := ∃ m e : Int, |m| < 2 ^ p ∧ emin ≤ e ∧ x = m * 2 ^ e

/-- `y` is one of the numbers `S` that are nearest to `x`. -/
def Nearest (S : ℚ → Prop) (x y : ℚ) : Prop := S y ∧ ∀ z, S z → |y - x| ≤ |z - x|

/-- `w` is a decimal number for `x ≥ 0`: digits, optionally with a point before, after or between them, optionally followed by
`e` or `E` and an integer that says how many places the point is to be moved. -/
inductive Decimal : Str → ℚ → Prop
  | int {a} : IsDigits a → Decimal a (decValue a)
  | point {a b} : (∀ d ∈ a, 48 ≤ d.toNat ∧ d.toNat ≤ 57) → (∀ d ∈ b, 48 ≤ d.toNat ∧ d.toNat ≤ 57) → a ++ b ≠ [] →
      Decimal (a ++ 46 :: b) (decValue (a ++ b) / 10 ^ b.length)
  | exp {w x e n k} : Decimal w x → c!"e" ∉ w → c!"E" ∉ w → (e = c!"e" ∨ e = c!"E") → Numeral n k →
      Decimal (w ++ e :: n) (x * 10 ^ k)

/-- The text is over, or goes on with a character that is not part of a number. -/
def Ends (rest : Str) : Prop :=
  ∀ c ∈ rest.head?, ¬ (48 ≤ c.toNat ∧ c.toNat ≤ 57) ∧ c ∉ b!".eExX"

end Flut.Spec

namespace Flut.Spec

/-- A text that begins with a number, a written infinity or a written not-a-number, in capitals or not. -/
def NumberStart (p : Str) : Prop :=
  (∃ c cs, p = c :: cs ∧ 48 ≤ c.toNat ∧ c.toNat ≤ 57) ∨
  (∃ c cs, p = c!"." :: c :: cs ∧ 48 ≤ c.toNat ∧ c.toNat ≤ 57) ∨
  (∃ a b c cs, p = a :: b :: c :: cs ∧
    ((a ∈ b!"iI" ∧ b ∈ b!"nN" ∧ c ∈ b!"fF") ∨ (a ∈ b!"nN" ∧ b ∈ b!"aA" ∧ c ∈ b!"nN")))

/-- `x` is a whole number of times `u`. -/
def IsMultiple (u : ℚ) (x : ℚ) : Prop := ∃ n : Int, x = n * u

end Flut.Spec

namespace Flut.Spec

/-- The hexadecimal digit `c` stands for `v`. -/
def HexDigit (c : Byte) (v : Nat) : Prop :=
  (v < 10 ∧ c.toNat = 48 + v) ∨ (10 ≤ v ∧ v < 16 ∧ (c.toNat = 97 + (v - 10) ∨ c.toNat = 65 + (v - 10)))

/-- The hexadecimal digits `w`, read from left to right, stand for `n`. -/
inductive HexDigits : Str → Nat → Prop
  | nil : HexDigits [] 0
  | snoc {w n c v} : HexDigits w n → HexDigit c v → HexDigits (w ++ [c]) (16 * n + v)

/-- `w` is a hexadecimal number for `x ≥ 0` (without the prefix): digits, optionally with a point, optionally followed by `p` or
`P` and a decimal integer, which is the exponent of a factor that is a power of two. -/
inductive Hexadecimal : Str → ℚ → Prop
  | int {a n} : HexDigits a n → a ≠ [] → Hexadecimal a n
  | point {a b n} : HexDigits (a ++ b) n → a ++ b ≠ [] → Hexadecimal (a ++ 46 :: b) (n / 16 ^ b.length)
  | exp {w x p n k} : Hexadecimal w x → c!"p" ∉ w → c!"P" ∉ w → (p = c!"p" ∨ p = c!"P") → Numeral n k →
      Hexadecimal (w ++ p :: n) (x * 2 ^ k)

/-- The text is over, or goes on with a character that is not part of a hexadecimal number. -/
def HexEnds (rest : Str) : Prop := ∀ c ∈ rest.head?, (∀ v, ¬ HexDigit c v) ∧ c ∉ b!".pP"

/-- `w` is the word `v`, which is in lower case, in any mixture of capitals and small letters. -/
def SameWord (w v : Str) : Prop := List.Forall₂ (fun c d => c = d ∨ c.toNat + 32 = d.toNat) w v

end Flut.Spec
