import Verif.Model.CharStream

/-!
# Numbers as text: `flut/system/string_cast.hpp`, `flut/system/version.hpp`; and `flut/hash.hpp`

The standard library functions used there (`std::istringstream >> int`, `>> char`, `>> string`, `std::stol` and relatives,
`std::to_string`, `printf( "%d" )`) are modelled as the standard prescribes for the "C" locale.
-/

namespace Flut

open CharStream (digitsVal saturate)

/-- Decimal digits of a number; `fuel` exceeds the number of digits. -/
def natStrF : Nat → Nat → Str
  | 0, _ => []
  | fuel + 1, n => if n < 10 then [UInt8.ofNat (48 + n)] else natStrF fuel (n / 10) ++ [UInt8.ofNat (48 + n % 10)]

/-- `std::to_string` of an unsigned number. -/
def natStr (n : Nat) : Str := natStrF (n + 1) n

/-- `std::to_string` of a signed number; also `str << value` and `printf( "%d" )`. -/
def intStr (x : Int) : Str := if x < 0 then 45 :: natStr x.natAbs else natStr x.natAbs

/-- An optional sign and digits at the front of a text: the number, its digits' value, its sign and what follows. -/
def scanNumber (p : Str) : Option (Nat × Bool × Str) :=
  let neg := p.head? == some 45
  let p1 := if p.head? = some 45 ∨ p.head? = some 43 then p.tail else p
  let ds := p1.takeWhile isDigitC
  if ds.isEmpty then none else some (digitsVal ds, neg, p1.dropWhile isDigitC)

/-- The signed value. -/
def signed (m : Nat) (neg : Bool) : Int := if neg then -(m : Int) else m

/-- `std::stol`, `std::stoll`, for integers of the given width. -/
def stol (bits : Nat) (s : Str) : Res Int :=
  match scanNumber ((cstr s).dropWhile isSpaceC) with
  | none => .throws .invalidArgument
  | some (m, neg, _) =>
    let v := signed m neg
    if -(2 ^ (bits - 1) : Int) ≤ v ∧ v < 2 ^ (bits - 1) then .ok v else .throws .outOfRange

/-- `std::stoul`, `std::stoull`: a minus sign negates modulo `2^bits`, as `strtoul` does. -/
def stoul (bits : Nat) (s : Str) : Res Nat :=
  match scanNumber ((cstr s).dropWhile isSpaceC) with
  | none => .throws .invalidArgument
  | some (m, neg, _) =>
    if m < 2 ^ bits then .ok (if neg then (2 ^ bits - m) % 2 ^ bits else m) else .throws .outOfRange

/-! ## Input streams -/

/-- `std::istringstream`: unread characters, eofbit, failbit. -/
structure IStream where
  rest : Str
  eof : Bool := false
  fail : Bool := false
deriving DecidableEq

namespace IStream

/-- `good()`. -/
def good (s : IStream) : Bool := !s.eof && !s.fail

/-- The sentry of formatted input: skips white space, fails at the end. -/
def sentry (s : IStream) : Bool × IStream :=
  if s.good then
    let r := s.rest.dropWhile isSpaceC
    if r.isEmpty then (false, { rest := [], eof := true, fail := true }) else (true, { s with rest := r })
  else (false, { s with fail := true })

/-- `>> int`: what is stored (`none`: nothing) and the stream. Without digits 0 is stored, on overflow the nearest value; both
set failbit. -/
def readInt (bits : Nat) (s : IStream) : Option Int × IStream :=
  match s.sentry with
  | (false, s) => (none, s)
  | (true, s) =>
    match scanNumber s.rest with
    | none =>
      let r := if s.rest.head? = some 45 ∨ s.rest.head? = some 43 then s.rest.tail else s.rest
      (some 0, { rest := r, eof := r.isEmpty, fail := true })
    | some (m, neg, r) =>
      let v := signed m neg
      if -(2 ^ (bits - 1) : Int) ≤ v ∧ v < 2 ^ (bits - 1) then (some v, { rest := r, eof := r.isEmpty, fail := false })
      else (some (saturate bits v), { rest := r, eof := r.isEmpty, fail := true })

/-- `>> char`. -/
def readChar (s : IStream) : Option Byte × IStream :=
  match s.sentry with
  | (false, s) => (none, s)
  | (true, s) => (s.rest.head?, { s with rest := s.rest.tail })

/-- `>> std::string`. -/
def readString (s : IStream) : Option Str × IStream :=
  match s.sentry with
  | (false, s) => (none, s)
  | (true, s) =>
    let w := s.rest.takeWhile (fun c => !isSpaceC c)
    let r := s.rest.dropWhile (fun c => !isSpaceC c)
    (some w, { s with rest := r, eof := r.isEmpty })

/-- `>> bool` without `boolalpha`: reads a `long`; anything but 0 and 1 sets failbit and stores true. -/
def readBool (s : IStream) : Option Bool × IStream :=
  match s.readInt 64 with
  | (none, s) => (none, s)
  | (some v, s) => (some (v != 0), if v = 0 ∨ v = 1 then s else { s with fail := true })

end IStream

/-! ## `string_cast` -/

/-- `string_cast< int >::from` (flut/system/string_cast.hpp:10, the generic one): `T value = T(); str >> value`. -/
def intFrom (s : Str) : Res Int := .ok ((IStream.readInt 32 { rest := s }).1.getD 0)

/-- `string_cast< int >::to` (flut/system/string_cast.hpp:11). -/
def intTo (x : Int) : Str := intStr x

/-- `string_cast< bool >` is the generic one too (flut/system/string_cast.hpp:9-12). -/
def boolFrom (s : Str) : Res Bool := .ok ((IStream.readBool { rest := s }).1.getD false)

/-- `string_cast< bool >::to`: `str << value` without `boolalpha`. -/
def boolTo (b : Bool) : Str := if b then b!"1" else b!"0"

/-- `string_cast< long >`, `< long long >` (flut/system/string_cast.hpp:24-32), of the given width. -/
def longFrom (bits : Nat) (s : Str) : Res Int := stol bits s

/-- `string_cast< long >::to` (flut/system/string_cast.hpp:26,31). -/
def longTo (x : Int) : Str := intStr x

/-- `string_cast< unsigned long >`, `< unsigned long long >` (flut/system/string_cast.hpp:34-42). -/
def ulongFrom (bits : Nat) (s : Str) : Res Nat := stoul bits s

/-- `string_cast< unsigned long >::to` (flut/system/string_cast.hpp:36,41). -/
def ulongTo (n : Nat) : Str := natStr n

/-- `string_cast` of an enumeration (flut/system/string_cast.hpp:54-57), with the conversions between the enumeration and
`int`. -/
def enumFrom {E : Type} (ofInt : Int → E) (s : Str) : Res E := do
  let x ← intFrom s
  .ok (ofInt x)

/-- `string_cast< enum >::to` (flut/system/string_cast.hpp:56). -/
def enumTo {E : Type} (toInt : E → Int) (e : E) : Str := intTo (toInt e)

/-- `string_is` (flut/system/string_cast.hpp:59-62). -/
def stringIs {T : Type} (from' : Str → Res T) (s : Str) : Res Bool :=
  match from' s with
  | .ok _ => .ok true
  | .throws _ => .ok false
  | .ub => .ub
  | .diverges => .diverges

/-! ## `version` -/

/-- `version` (flut/system/version.hpp:29-33); `none` is an indeterminate member. -/
structure Version where
  major : Option Int := none
  minor : Option Int := none
  patch : Option Int := none
  build : Option Int := none
  postfix' : Str := []
deriving DecidableEq

namespace Version

/-- `version( maj, min, bugfix, bld, post )` (flut/system/version.hpp:11-12). -/
def mk' (major minor patch : Int) (build : Int := 0) (post : Str := []) : Version :=
  ⟨some major, some minor, some patch, some build, post⟩

/-- `version( string )` (flut/system/version.hpp:14-20). -/
def parse (v : Str) : Version :=
  let s : IStream := { rest := v }
  let (major, s) := s.readInt 32
  let (_, s) := s.readChar
  let (minor, s) := s.readInt 32
  let (_, s) := s.readChar
  let (patch, s) := s.readInt 32
  let (_, s) := s.readChar
  let (build, s) := if s.good then s.readInt 32 else (none, s)
  let (post, _) := if s.good then s.readString else (none, s)
  ⟨major, minor, patch, build, post.getD []⟩

/-- `to_str` (flut/system/version.hpp:22-27); printing an indeterminate member is undefined. -/
def toStr (v : Version) : Res Str :=
  match v.major, v.minor, v.patch, v.build with
  | some a, some b, some c, some d =>
    let s := intStr a ++ 46 :: intStr b ++ 46 :: intStr c
    let s := if d > 0 then s ++ 46 :: intStr d else s
    .ok (if v.postfix'.isEmpty then s else s ++ 32 :: v.postfix')
  | _, _, _, _ => .ub

end Version

/-! ## `hash` -/

/-- `fnv1a_64_prime` (flut/hash.hpp:15). -/
def fnvPrime : UInt64 := 0x100000001B3

/-- `fnv1a_64_basis` (flut/hash.hpp:16). -/
def fnvBasis : UInt64 := 0xCBF29CE484222325

/-- A `char` in arithmetic with `uint64_t`: sign-extended. -/
def charTo64 (c : Byte) : UInt64 := UInt64.ofInt (schar c)

/-- `hash_constexpr` (flut/hash.hpp:18-21) on the memory from `str` on; running past its end is undefined. -/
def hashConstexpr : Str → UInt64 → Res UInt64
  | [], _ => .ub
  | c :: str, last => if c ≠ 0 then hashConstexpr str ((charTo64 c ^^^ last) * fnvPrime) else .ok last

/-- The loop of `hash( char const* )` (flut/hash.hpp:26). -/
def hashLoop : Str → UInt64 → Res UInt64
  | [], _ => .ub
  | c :: str, ret =>
    if c ≠ 0 then
      let ret := ret ^^^ charTo64 c
      let ret := ret * fnvPrime
      hashLoop str ret
    else .ok ret

/-- `hash( char const* )` (flut/hash.hpp:23-28). -/
def hashC (str : Str) : Res UInt64 := hashLoop str fnvBasis

/-- `hash( const std::string& )` (flut/hash.hpp:30): `c_str()` appends a NUL. -/
def hashStr (s : Str) : Res UInt64 := hashC (s ++ [0])

/-- `operator""_hash` (flut/hash.hpp:33): a literal is followed by a NUL. -/
def hashLiteral (s : Str) : Res UInt64 := hashConstexpr (s ++ [0]) fnvBasis

end Flut
