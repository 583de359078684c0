import Verif.Model.Printf
import Verif.Spec.Real

/-! # Specification of formatted text

Of the model, these definitions use the type of arguments, `PrintfArg`, and the type of floating-point numbers, `Flt`. -/

namespace Flut.Spec

/-- The symbols of digits. -/
def digitSymbols (upper : Bool) : Str := if upper then b!"0123456789ABCDEF" else b!"0123456789abcdef"

/-- The digits show `n`: there are at least `least` of them, and if there are more than that there is no useless zero in front. -/
def ShowsNat (base : Nat) (upper : Bool) (least n : Nat) (ds : Str) : Prop :=
  ∃ vs : List Nat, (∀ v ∈ vs, v < base) ∧ ds = vs.map (fun v => (digitSymbols upper).getD v 0) ∧ vs.foldl (fun a v => a * base + v) 0 = n ∧
    least ≤ vs.length ∧ (least < vs.length → vs.head? ≠ some 0)

/-- The digits show the number `x ≥ 0` with `p` digits behind the point, rounded to the nearest. -/
def ShowsFixed (p : Nat) (x : ℚ) (s : Str) : Prop :=
  ∃ a b : Str, s = a ++ (if p = 0 then [] else c!"." :: b) ∧ IsDigits a ∧ (a.head? = some c!"0" → a = b!"0") ∧
    (∀ d ∈ b, 48 ≤ d.toNat ∧ d.toNat ≤ 57) ∧ b.length = p ∧ |(decValue (a ++ b) : ℚ) / 10 ^ p - x| ≤ 1 / (2 * 10 ^ p)

/-- The digits `a` (one digit) and `b` (`p` digits) and the exponent `e` of the first one show the number `x ≥ 0`: the first digit is not zero unless the
number is, and the error is at most a half of a unit of the last of `p + 1` digits of the number. -/
structure ShowsDigits (p : Nat) (x : ℚ) (a b : Str) (e : Int) : Prop where
  first : a.length = 1
  rest : b.length = p
  digits : ∀ d ∈ a ++ b, 48 ≤ d.toNat ∧ d.toNat ≤ 57
  zero : x = 0 → e = 0 ∧ decValue (a ++ b) = 0
  near : x ≠ 0 → a ≠ b!"0" ∧ ∃ k : Int, (10 : ℚ) ^ k ≤ x ∧ x < 10 ^ (k + 1) ∧ |(decValue (a ++ b) : ℚ) * 10 ^ (e - p) - x| ≤ 10 ^ (k - p) / 2

/-- An exponent: a letter, a sign and at least two digits. -/
def ShowsExponent (upper : Bool) (e : Int) (s : Str) : Prop :=
  ∃ ds, s = (if upper then c!"E" else c!"e") :: (if e < 0 then c!"-" else c!"+") :: ds ∧ ShowsNat 10 false 2 e.natAbs ds

/-- The digits show the number `x ≥ 0` with `p` digits behind the point and an exponent. -/
def ShowsScientific (upper : Bool) (p : Nat) (x : ℚ) (s : Str) : Prop :=
  ∃ a b e t, ShowsDigits p x a b e ∧ ShowsExponent upper e t ∧ s = a ++ (if p = 0 then [] else c!"." :: b) ++ t

/-- Digits before and behind a point, without the zeros at the end, and without the point if there are no more digits behind it. -/
def WithoutZeros (a b s : Str) : Prop :=
  ∃ b' k, b = b' ++ List.replicate k c!"0" ∧ b'.getLast? ≠ some c!"0" ∧ s = a ++ (if b' = [] then [] else c!"." :: b')

/-- The digits show the number `x ≥ 0` with `p` digits (at least one), without zeros at the end. If the exponent of the first one is below -4 or at least
`p`, they show it with an exponent, otherwise without. -/
def ShowsGeneral (upper : Bool) (p : Nat) (x : ℚ) (s : Str) : Prop :=
  ∃ a b e, ShowsDigits (max p 1 - 1) x a b e ∧
    ((-4 ≤ e ∧ e < max p 1) → ∃ (q : Nat) (a' b' : Str), (q : Int) = max p 1 - 1 - e ∧ ShowsFixed q x (a' ++ (if q = 0 then [] else c!"." :: b')) ∧ b'.length = q ∧
      c!"." ∉ a' ∧ WithoutZeros a' b' s) ∧
    (¬ (-4 ≤ e ∧ e < max p 1) → ∃ w t, WithoutZeros a b w ∧ ShowsExponent upper e t ∧ s = w ++ t)

/-- A conversion as it stands in a format. -/
structure Conversion where
  flags : Str
  width : Str
  prec : Option Str
  len : Str
  kind : Byte

namespace Conversion

/-- The text of its precision. -/
def precText (c : Conversion) : Str := match c.prec with | none => [] | some p => c!"." :: p

/-- Its text. -/
def source (c : Conversion) : Str := c!"%" :: (c.flags ++ c.width ++ c.precText ++ c.len ++ [c.kind])

/-- It is written correctly. (A width that began with a zero would be taken for a flag.) -/
structure Valid (c : Conversion) : Prop where
  flags : ∀ x ∈ c.flags, x ∈ b!"-0+ "
  width : ∀ x ∈ c.width, 48 ≤ x.toNat ∧ x.toNat ≤ 57
  width_head : c.width.head? ≠ some c!"0"
  prec : ∀ p, c.prec = some p → ∀ x ∈ p, 48 ≤ x.toNat ∧ x.toNat ≤ 57
  len : c.len = [] ∨ c.len = b!"l" ∨ c.len = b!"ll" ∨ c.len = b!"z"
  kind : c.kind ∈ b!"diuoxXcsfFeEgG"

/-- The base of an unsigned conversion. -/
def base (c : Conversion) : Nat := if c.kind = c!"o" then 8 else if c.kind = c!"u" then 10 else 16

/-- The sign shown for a number of a signed type. -/
def signText (c : Conversion) (neg : Bool) : Str :=
  if neg then b!"-" else if c!"+" ∈ c.flags then b!"+" else if c!" " ∈ c.flags then b!" " else []

/-- The smallest number of digits of an integer. -/
def least (c : Conversion) : Nat := match c.prec with | none => 1 | some p => decValue p

/-- `out` is the sign and the body, filled up to the width: with blanks on the right if the flag `-` is given, otherwise with zeros behind the sign
if the flag `0` is given and means something here, otherwise with blanks on the left. -/
def Field (c : Conversion) (zeros : Prop) (sign body out : Str) : Prop :=
  ∃ n, n + (sign.length + body.length) = max (decValue c.width) (sign.length + body.length) ∧
    (c!"-" ∈ c.flags → out = sign ++ body ++ List.replicate n c!" ") ∧
    (c!"-" ∉ c.flags → zeros ∧ c!"0" ∈ c.flags → out = sign ++ List.replicate n c!"0" ++ body) ∧
    (c!"-" ∉ c.flags → ¬ (zeros ∧ c!"0" ∈ c.flags) → out = List.replicate n c!" " ++ sign ++ body)

/-- A signed number is shown. -/
def ShowsSigned (c : Conversion) (v : Int) (out : Str) : Prop :=
  ∃ body, ShowsNat 10 false c.least v.natAbs body ∧ c.Field (c.prec = none) (c.signText (decide (v < 0))) body out

/-- An unsigned number is shown. -/
def ShowsUnsigned (c : Conversion) (n : Nat) (out : Str) : Prop :=
  ∃ body, ShowsNat c.base (decide (c.kind = c!"X")) c.least n body ∧ c.Field (c.prec = none) [] body out

/-- The argument has the type that the conversion asks for. An `int` may be given for an `unsigned int` and so on. -/
def Fits (c : Conversion) (a : PrintfArg) : Prop :=
  (c.kind ∈ b!"diuoxX" ∧ c.len = [] ∧ ((∃ v, a = .int v) ∨ ∃ n, a = .uint n)) ∨
  (c.kind ∈ b!"diuoxX" ∧ c.len ≠ [] ∧ ((∃ v, a = .long v) ∨ ∃ n, a = .ulong n)) ∨
  (c.kind = c!"c" ∧ c.len = [] ∧ c.prec = none ∧ c!"0" ∉ c.flags ∧ ∃ v, a = .int v) ∨
  (c.kind = c!"s" ∧ c.len = [] ∧ c!"0" ∉ c.flags ∧ ∃ s, a = .str s) ∨
  (c.kind ∈ b!"fFeEgG" ∧ (c.len = [] ∨ c.len = b!"l") ∧ ∃ x, a = .real x)

/-- The two numbers have the same representation of `bits` bits. -/
def SameBits (bits : Nat) (a b : Int) : Prop := (2 ^ bits : Int) ∣ a - b

/-- The number `v` is one of the signed type of `bits` bits. -/
def SignedRange (bits : Nat) (v : Int) : Prop := -2 ^ (bits - 1) ≤ v ∧ v < 2 ^ (bits - 1)

/-- The integer argument `a` of the type of `bits` bits is shown. -/
def ShowsInteger (c : Conversion) (bits : Nat) (a : Int) (out : Str) : Prop :=
  (c.kind ∈ b!"di" → ∃ v, SignedRange bits v ∧ SameBits bits v a ∧ c.ShowsSigned v out) ∧
  (c.kind ∈ b!"uoxX" → ∃ n : Nat, n < 2 ^ bits ∧ SameBits bits n a ∧ c.ShowsUnsigned n out)

/-- How many digits of a real number are asked for. -/
def places (c : Conversion) : Nat := match c.prec with | none => 6 | some p => decValue p

/-- A finite real number without its sign is shown. -/
def ShowsReal (c : Conversion) (m : ℚ) (body : Str) : Prop :=
  (c.kind ∈ b!"fF" → ShowsFixed c.places m body) ∧ (c.kind ∈ b!"eE" → ShowsScientific (decide (c.kind = c!"E")) c.places m body) ∧
  (c.kind ∈ b!"gG" → ShowsGeneral (decide (c.kind = c!"G")) c.places m body)

/-- What is shown for an argument that fits. The sign of what is not a number is not shown. -/
def Shows (c : Conversion) : PrintfArg → Str → Prop
  | .int v, out => if c.kind = c!"c" then c.Field False [] [UInt8.ofInt v] out else c.ShowsInteger 32 v out
  | .uint n, out => c.ShowsInteger 32 n out
  | .long v, out => c.ShowsInteger 64 v out
  | .ulong n, out => c.ShowsInteger 64 n out
  | .str s, out => c.Field False [] (match c.prec with | none => s | some p => s.take (decValue p)) out
  | .real (.fin neg m), out =>
    ∃ body, c.ShowsReal m body ∧ c.Field True (c.signText neg) body out
  | .real (.inf neg), out => c.Field False (c.signText neg) (if c.kind ∈ b!"FEG" then b!"INF" else b!"inf") out
  | .real (.nan _), out => c.Field False (c.signText false) (if c.kind ∈ b!"FEG" then b!"NAN" else b!"nan") out

end Conversion

/-- The arguments are numbers of their types, and the strings hold no NUL. -/
def ArgOk : PrintfArg → Prop
  | .int v => Conversion.SignedRange 32 v
  | .uint n => n < 2 ^ 32
  | .long v => Conversion.SignedRange 64 v
  | .ulong n => n < 2 ^ 64
  | .str s => ∀ c ∈ s, c ≠ 0
  | .real (.fin _ m) => 0 ≤ m
  | .real _ => True

/-- A part of a format: text without `%`, the text `%%`, or a conversion. -/
inductive Piece where
  | text (s : Str)
  | percent
  | conv (c : Conversion)

namespace Piece

def Valid : Piece → Prop
  | text s => ∀ c ∈ s, c ≠ c!"%" ∧ c ≠ 0
  | percent => True
  | conv c => c.Valid

def source : Piece → Str
  | text s => s
  | percent => b!"%%"
  | conv c => c.source

end Piece

/-- The text of a format. -/
def formatOf (ps : List Piece) : Str := ps.flatMap Piece.source

/-- The format expands to `out`: text stands for itself, `%%` for `%`, each conversion takes an argument that fits. Further arguments are ignored. -/
inductive Formats : List Piece → List PrintfArg → Str → Prop
  | nil (as) : Formats [] as []
  | text (s) {ps as out} : Formats ps as out → Formats (.text s :: ps) as (s ++ out)
  | percent {ps as out} : Formats ps as out → Formats (.percent :: ps) as (c!"%" :: out)
  | conv (c) {a t ps as out} : c.Fits a → c.Shows a t → Formats ps as out → Formats (.conv c :: ps) (a :: as) (t ++ out)

/-- The arguments are of the right types and there are enough of them. -/
def Enough : List Piece → List PrintfArg → Prop
  | [], _ => True
  | .conv c :: ps, a :: as => c.Fits a ∧ Enough ps as
  | .conv _ :: _, [] => False
  | .text _ :: ps, as => Enough ps as
  | .percent :: ps, as => Enough ps as

end Flut.Spec
