import Verif.Model.Real
import Verif.Model.MathTypes
import Verif.Model.CharStream

/-!
# Real numbers in C++ streams: `std::ostream << double`, `std::istream >> double`, and the types of flut that use them

The functions of the C++ library are modelled as libstdc++ has them, in the "C" locale.
-/

namespace Flut

namespace Stream

/-! ## Writing -/

/-- Digits without the zeros at the end. -/
def stripZeros (b : Str) : Str := (b.reverse.dropWhile (· == 48)).reverse

/-- Digits before and after a point, without the zeros at the end and without the point if nothing remains behind it. -/
def joinPoint (a b : Str) : Str := if (stripZeros b).isEmpty then a else a ++ 46 :: stripZeros b

/-- The six digits of `m > 0` (rounded to nearest, ties to even) and the decimal exponent of the first one. -/
def sixDigits (m : ℚ) : Nat × Int :=
  let e := Int.log 10 m
  let n := (roundEven (m / 10 ^ (e - 5))).toNat
  if n = 1000000 then (100000, e + 1) else (n, e)

/-- A decimal exponent: a sign and at least two digits. -/
def expText (x : Int) : Str := (if x < 0 then 45 else 43) :: (if x.natAbs < 10 then 48 :: natStr x.natAbs else natStr x.natAbs)

/-- `printf( "%g" )` of a magnitude. -/
def magText (m : ℚ) : Str :=
  if m = 0 then b!"0"
  else
    let (n, x) := sixDigits m
    let d := pad6 n
    if -4 ≤ x ∧ x < 6 then
      if 0 ≤ x then joinPoint (d.take (x.toNat + 1)) (d.drop (x.toNat + 1))
      else joinPoint b!"0" (List.replicate ((-x).toNat - 1) 48 ++ d)
    else joinPoint (d.take 1) (d.drop 1) ++ 101 :: expText x

/-- `std::ostream << double` and `<< float` with the default precision of six digits. -/
def realText : Flt → Str
  | .fin neg m => (if neg then [45] else []) ++ magText m
  | .inf neg => (if neg then [45] else []) ++ b!"inf"
  | .nan neg => (if neg then [45] else []) ++ b!"nan"

/-! ## Reading -/

/-- The part of an input stream that matters here: what has not been read, and whether reading failed. -/
structure In where
  rest : Str
  fail : Bool
  deriving DecidableEq

/-- The sign at the beginning of a text. -/
def signPart (p : Str) : Str := if p.head? = some 45 ∨ p.head? = some 43 then p.take 1 else []

/-- A point and the digits after it. -/
def pointPart (p : Str) : Str := if p.head? = some 46 then 46 :: p.tail.takeWhile isDigitC else []

/-- The letter of an exponent, its sign and its digits. -/
def expPart (p : Str) : Str :=
  if p.head? = some 101 ∨ p.head? = some 69 then
    p.take 1 ++ signPart p.tail ++ (p.tail.drop (signPart p.tail).length).takeWhile isDigitC
  else []

/-- The characters that `std::num_get` takes for a real number: a sign, digits, digits after a point, and, if there were any digits, an
exponent. -/
def numPrefix (p : Str) : Str :=
  let s := signPart p
  let p := p.drop s.length
  let a := p.takeWhile isDigitC
  let p := p.drop a.length
  let b := pointPart p
  let p := p.drop b.length
  s ++ a ++ b ++ if a.isEmpty && b.length ≤ 1 then [] else expPart p

/-- `std::istream >> double` and `>> float`, where `old` is the value of the variable before: it is left alone if there is nothing to
read or if the stream has failed. A text that is no number gives zero, a number that is too large the largest one; both set the
failure flag. -/
def readReal (f : Fmt) (old : Flt) (s : In) : Flt × In :=
  if s.fail then (old, s)
  else
    let p := s.rest.dropWhile isSpaceC
    if p.isEmpty then (old, ⟨[], true⟩)
    else
      let w := numPrefix p
      let r := p.drop w.length
      match strtod f w with
      | some (.inf neg, _, []) => (.fin neg f.maxVal, ⟨r, true⟩)
      | some (v, _, []) => (v, ⟨r, false⟩)
      | _ => (.fin false 0, ⟨r, true⟩)

/-! ## flut -/

/-- `operator<<` for a vector, /repo/flut/math/vec3.hpp:96-97. -/
def vec3Text (v : Vec3 Flt) : Str := realText v.x ++ b!" " ++ realText v.y ++ b!" " ++ realText v.z

/-- `operator>>` for a vector, /repo/flut/math/vec3.hpp:100-101. -/
def readVec3 (f : Fmt) (old : Vec3 Flt) (s : In) : Vec3 Flt × In :=
  let (x, s) := readReal f old.x s
  let (y, s) := readReal f old.y s
  let (z, s) := readReal f old.z s
  (⟨x, y, z⟩, s)

/-- `from_str< vec3_< T > >`: /repo/flut/system/string_cast.hpp:10. -/
def vec3From (f : Fmt) (s : Str) : Vec3 Flt := (readVec3 f ⟨.fin false 0, .fin false 0, .fin false 0⟩ ⟨s, false⟩).1

/-- The text branch of the constructor `vec3_( const prop_node& )`, /repo/flut/math/vec3_type.hpp:20: the value of the node is read with
a `char_stream`. -/
def vec3OfText (f : Fmt) (value : Str) : Vec3 Flt :=
  let s := CharStream.ofCStr (cstr value)
  let (x, s) := s.readReal f
  let (y, s) := s.readReal f
  let (z, _) := s.readReal f
  ⟨x, y, z⟩

/-- `operator<<` for a quaternion, /repo/flut/math/quat.hpp:221-222. -/
def quatText (q : Quat Flt) : Str := realText q.w ++ b!" " ++ realText q.x ++ b!" " ++ realText q.y ++ b!" " ++ realText q.z

/-- `from_str` of an angle: `operator>>` for an angle reads its value in its own unit, /repo/flut/math/angle.hpp:127-128,
/repo/flut/system/string_cast.hpp:10. -/
def angleFrom (f : Fmt) (s : Str) : Flt := (readReal f (.fin false 0) ⟨s, false⟩).1

/-- `to_str` of an angle: `operator<<` writes its value, /repo/flut/math/angle.hpp:124-125, /repo/flut/system/string_cast.hpp:11. -/
def angleTo (value : Flt) : Str := realText value

end Stream

end Flut
