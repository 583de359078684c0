import Verif.Model.Float
import Verif.Model.FloatVec

/-!
# `flut/math/random.hpp`

The engine and the distributions come from the standard library; the model is that of libstdc++ 13 (`bits/random.h` and `bits/random.tcc`),
where `std::default_random_engine` is `minstd_rand0` (random.h:1641). (Another library may use another engine.) `long double` has 64 bits of
precision.
-/

namespace Flut

namespace Random

/-- The modulus of `std::minstd_rand0`. -/
def modulus : Nat := 2147483647

/-- The constructor and `seed` (flut/math/random.hpp:18-19): `linear_congruential_engine::seed` replaces a state of zero by one
(random.tcc:119-126). `s` is an `unsigned int`. -/
def seed (s : Nat) : Nat := if s % modulus = 0 then 1 else s % modulus

/-- The seed that is used without an argument, also for `global_generator` (flut/math/random.hpp:18, flut/math/random.cpp:5). -/
def initial : Nat := seed 123

/-- A call of the engine: the new state, which is also the result (random.h:112-122). -/
def next (x : Nat) : Nat := 16807 * x % modulus

/-- The loop of `std::generate_canonical` (random.tcc:3362-3369): a sum of draws (minus the smallest, 1), each weighted with the number of
draws that are possible. The factor is a `long double`, so the product is rounded once. -/
def canonicalLoop (f : Fmt) : Nat → Flt → Flt → Nat → Flt × Flt × Nat
  | 0, sum, tmp, x => (sum, tmp, x)
  | k + 1, sum, tmp, x =>
    let x := next x
    canonicalLoop f k (f.add sum (f.mul (f.ofRat (x - 1 : Nat)) tmp)) (f.ofRat (tmp.val * 2147483646)) x

/-- `std::generate_canonical< T, digits >` (random.tcc:3349-3381): the number of draws is that of the bits of `T` divided by 30, rounded up
(30 is the logarithm of 2147483646, cut to an integer). A quotient of one or more is replaced by the number before one. -/
def canonical (f : Fmt) (x : Nat) : Flt × Nat :=
  let (sum, tmp, x) := canonicalLoop f (max 1 ((f.prec + 30 - 1) / 30)) (.fin false 0) (.fin false 1) x
  let r := f.div sum tmp
  if (Flt.fin false 1).le r then (.fin false (1 - 1 / 2 ^ f.prec), x) else (r, x)

/-- `uni` (flut/math/random.hpp:20, 34): `std::uniform_real_distribution` (random.h:1904-1910), without the assertion `min <= max`, which is
off by default, and with every operation rounded (no fused multiplication). -/
def uni (f : Fmt) (min max : Flt) (x : Nat) : Flt × Nat :=
  let (u, x) := canonical f x
  (f.add (f.mul u (f.sub max min)) min, x)

/-- The loop of `std::normal_distribution`, which looks for a point in the unit disk (Marsaglia's polar method): the second coordinate, the
squared distance to the centre and the state (random.tcc:1827-1834). The first argument bounds the number of rounds. For `float` the
subtraction of `1.0` is done in `double` and rounded again, which gives the same as one rounding (53 bits are at least 2 * 24 + 2). -/
def polar (f : Fmt) : Nat → Nat → Res (Flt × Flt × Nat)
  | 0, _ => .diverges
  | n + 1, x =>
    let (u, x) := canonical f x
    let (w, x) := canonical f x
    let a := f.sub (f.mul (.fin false 2) u) (.fin false 1)
    let b := f.sub (f.mul (.fin false 2) w) (.fin false 1)
    let r := f.add (f.mul a a) (f.mul b b)
    if (Flt.fin false 1).lt r || r.eq (.fin false 0) then polar f n x else .ok (b, r, x)

/-- `norm` (flut/math/random.hpp:21, 35). `log` is the function of the standard library; random.tcc:1836-1843. The distribution is a new
object in every call, so the second number that the method yields is never used. -/
def norm (log : Flt → Flt) (f : Fmt) (n : Nat) (mean stdev : Flt) (x : Nat) : Res (Flt × Nat) := do
  let (b, r, x) ← polar f n x
  let mult := f.sqrt (f.div (f.mul (.fin true 2) (log r)) r)
  .ok (f.add (f.mul (f.mul b mult) stdev) mean, x)

end Random

end Flut
