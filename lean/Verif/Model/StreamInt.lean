import Verif.Model.Text

/-!
# The other integers of `flut/char_stream.hpp`
-/

namespace Flut

/-- `strtoul( p, &end, 10 )`, `strtoull` of the C standard library, for an unsigned type of the given width: the value and
`end - p` (zero when there is no number). A minus sign negates modulo `2^bits`; too large numbers give the largest value. -/
def strtoul (bits : Nat) (p : Str) : Nat × Nat :=
  match scanNumber (p.dropWhile isSpaceC) with
  | none => (0, 0)
  | some (m, neg, r) =>
    (if m < 2 ^ bits then (if neg then (2 ^ bits - m) % 2 ^ bits else m) else 2 ^ bits - 1, p.length - r.length)

namespace CharStream

/-- `operator>>( unsigned long& )`, `operator>>( unsigned long long& )` (flut/char_stream.hpp:38-39). -/
def readULong (bits : Nat) (s : CharStream) : Nat × CharStream :=
  ((strtoul bits s.rest).1, s.processEnd (strtoul bits s.rest).2)

/-- `operator>>( int& )`, `operator>>( short& )` (flut/char_stream.hpp:42,44): a `long` of `long` bits is converted to `bits`
bits, by keeping the lowest ones. -/
def readInt (bits long : Nat) (s : CharStream) : Int × CharStream :=
  ((strtol long s.rest).1.bmod (2 ^ bits), s.processEnd (strtol long s.rest).2)

/-- `operator>>( unsigned int& )`, `operator>>( unsigned short& )` (flut/char_stream.hpp:43,45). -/
def readUInt (bits long : Nat) (s : CharStream) : Nat × CharStream :=
  ((strtoul long s.rest).1 % 2 ^ bits, s.processEnd (strtoul long s.rest).2)

end CharStream

end Flut
