import Verif.Model.Text
import Mathlib.Data.Int.Log
import Mathlib.Data.Rat.Floor

/-!
# Real numbers as text: `flut/system/string_cast.hpp` for `float` and `double`, `char_stream >> double`

Here floating-point numbers are modelled exactly, as the numbers of a binary format (IEEE 754), not by exact
arithmetic as in the files on mathematics. The functions of the C library are modelled as the standard prescribes for the "C"
locale, with the correctly rounded conversions of Annex F (round to nearest, ties to even).
-/

namespace Flut

open CharStream (digitsVal)

/-- A binary floating-point format: significands have `prec` bits, and the exponent of the last bit goes from `emin` to
`emax`. -/
structure Fmt where
  prec : Nat
  emin : Int
  emax : Int
  deriving DecidableEq

/-- `double` -/
def Fmt.double : Fmt := ⟨53, -1074, 971⟩

/-- `float` -/
def Fmt.single : Fmt := ⟨24, -149, 104⟩

/-- A floating-point value: a sign and a magnitude, an infinity, or not a number. -/
inductive Flt where
  | fin (neg : Bool) (m : ℚ)
  | inf (neg : Bool)
  | nan (neg : Bool)
  deriving DecidableEq

/-- The nearest integer, and the even one of two that are equally near. -/
def roundEven (q : ℚ) : Int :=
  let n := ⌊q⌋
  if q - n < 1 / 2 then n else if 1 / 2 < q - n then n + 1 else if n % 2 = 0 then n else n + 1

/-- The exponent of the last bit of numbers of the size of `q`. -/
def Fmt.ulpExp (f : Fmt) (q : ℚ) : Int := max f.emin (Int.log 2 q - (f.prec - 1))

/-- Rounding to the format, without regard to the largest exponent. -/
def Fmt.rnd (f : Fmt) (q : ℚ) : ℚ := roundEven (q / 2 ^ f.ulpExp q) * 2 ^ f.ulpExp q

/-- The largest number of the format. -/
def Fmt.maxVal (f : Fmt) : ℚ := (2 ^ f.prec - 1) * 2 ^ f.emax

/-- The least number with a full significand. -/
def Fmt.minNormal (f : Fmt) : ℚ := 2 ^ (f.emin + (f.prec - 1))

/-- The value for a magnitude, and whether `errno` becomes `ERANGE`: on overflow and on inexact results below `minNormal`. -/
def Fmt.convert (f : Fmt) (neg : Bool) (q : ℚ) : Flt × Bool :=
  if f.maxVal < f.rnd q then (.inf neg, true) else (.fin neg (f.rnd q), decide (f.rnd q ≠ q ∧ q < f.minNormal))

/-! ## Writing -/

/-- A number below a million with leading zeros. -/
def pad6 (n : Nat) : Str := List.replicate (6 - (natStr n).length) 48 ++ natStr n

/-- `std::to_string` of a `float` or `double`: `printf( "%f" )`. -/
def fixed6 : Flt → Str
  | .fin neg m =>
    let n := (roundEven (m * 1000000)).toNat
    (if neg then [45] else []) ++ natStr (n / 1000000) ++ 46 :: pad6 (n % 1000000)
  | .inf neg => (if neg then [45] else []) ++ b!"inf"
  | .nan neg => (if neg then [45] else []) ++ b!"nan"

/-! ## Reading -/

/-- An exponent: the letter (given in lower case) and an integer. Without an integer nothing is read. -/
def scanExp (letter : Byte) (p : Str) : Int × Str :=
  if p.head? = some letter ∨ p.head? = some (letter - 32) then
    match scanNumber p.tail with
    | none => (0, p)
    | some (m, neg, r) => (signed m neg, r)
  else (0, p)

/-- Digits, and digits after a point: both strings and what follows. -/
def scanPoint (isDig : Byte → Bool) (p : Str) : Str × Str × Str :=
  let r := p.dropWhile isDig
  if r.head? = some 46 then (p.takeWhile isDig, r.tail.takeWhile isDig, r.tail.dropWhile isDig) else (p.takeWhile isDig, [], r)

/-- A decimal number without sign. -/
def scanDecimal (p : Str) : Option (ℚ × Str) :=
  let (a, b, r) := scanPoint isDigitC p
  if a.isEmpty && b.isEmpty then none
  else some (digitsVal (a ++ b) * 10 ^ ((scanExp 101 r).1 - b.length), (scanExp 101 r).2)

/-- The value of a hexadecimal digit. -/
def hexDigit (c : Byte) : Nat := if c ≤ 57 then c.toNat - 48 else if c ≤ 70 then c.toNat - 55 else c.toNat - 87

/-- `isxdigit` -/
def isHexDigitC (c : Byte) : Bool := isDigitC c || (65 ≤ c && c ≤ 70) || (97 ≤ c && c ≤ 102)

/-- A hexadecimal number after its prefix `0x`. -/
def scanHex (p : Str) : Option (ℚ × Str) :=
  let (a, b, r) := scanPoint isHexDigitC p
  if a.isEmpty && b.isEmpty then none
  else some (((a ++ b).foldl (fun v d => v * 16 + hexDigit d) 0 : Nat) * 2 ^ ((scanExp 112 r).1 - 4 * b.length), (scanExp 112 r).2)

/-- `tolower` -/
def lowerC (c : Byte) : Byte := if 65 ≤ c ∧ c ≤ 90 then c + 32 else c

/-- The text starts with this word (given in lower case). -/
def hasWord (w p : Str) : Bool := (p.take w.length).map lowerC == w

/-- What follows `nan`: letters, digits and underscores in parentheses may. -/
def skipNanText (r : Str) : Str :=
  let r' := r.tail.dropWhile fun c => isDigitC c || (97 ≤ lowerC c && lowerC c ≤ 122) || c == 95
  if r.head? = some 40 ∧ r'.head? = some 41 then r'.tail else r

/-- `strtod` and `strtof`: the value, whether `errno` becomes `ERANGE`, and what follows; nothing if there is no number. -/
def strtod (f : Fmt) (s : Str) : Option (Flt × Bool × Str) :=
  let p := s.dropWhile isSpaceC
  let neg := p.head? == some 45
  let p := if p.head? = some 45 ∨ p.head? = some 43 then p.tail else p
  if hasWord b!"infinity" p then some (.inf neg, false, p.drop 8)
  else if hasWord b!"inf" p then some (.inf neg, false, p.drop 3)
  else if hasWord b!"nan" p then some (.nan neg, false, skipNanText (p.drop 3))
  else
    let hex := if hasWord b!"0x" p then scanHex (p.drop 2) else none
    match hex.orElse fun _ => scanDecimal p with
    | none => none
    | some (q, r) => some ((f.convert neg q).1, (f.convert neg q).2, r)

/-- `std::stod` and `std::stof`. -/
def stod (f : Fmt) (s : Str) : Res Flt :=
  match strtod f (cstr s) with
  | none => .throws .invalidArgument
  | some (v, erange, _) => if erange then .throws .outOfRange else .ok v

/-! ## flut -/

/-- `string_cast< float >::from`, `string_cast< double >::from` (flut/system/string_cast.hpp:15,20). -/
def realFrom (f : Fmt) (s : Str) : Res Flt := stod f s

/-- `string_cast< float >::to`, `string_cast< double >::to` (flut/system/string_cast.hpp:16,21); also `to_str`, which does
not look at the precision set by `set_to_str_precision` (flut/string_tools.hpp:72, flut/string_tools.cpp:96-100). -/
def realTo (x : Flt) : Str := fixed6 x

/-- `char_stream >> float`, `>> double`, /repo/flut/char_stream.hpp:34-35. `errno` is not looked at. -/
def CharStream.readReal (f : Fmt) (s : CharStream) : Flt × CharStream :=
  match strtod f s.rest with
  | none => (.fin false 0, s.processEnd 0)
  | some (v, _, r) => (v, s.processEnd (s.rest.length - r.length))

end Flut
