import Verif.Basic

/-!
# Polynomials, running differences and soft limits of whole numbers
-/

namespace Flut

namespace IntPoly

/-- The result of an operation on `int`: overflow is undefined. -/
def chk (x : Int) : Res Int := if -2 ^ 31 ≤ x ∧ x < 2 ^ 31 then .ok x else .ub

/-- The loop in `operator()` of a `polynomial< int, D >` (flut/math/polynomial.hpp:17). -/
def polyLoop (v : Int) : Int → Int → List Int → Res Int
  | result, _, [] => .ok result
  | result, factor, c :: r => do
    let t ← chk (factor * c)
    let result ← chk (result + t)
    let factor ← chk (factor * v)
    polyLoop v result factor r

/-- `operator()` of a `polynomial< int, D >` (flut/math/polynomial.hpp:14-19). There is always a first coefficient, because `D > 0`. -/
def poly (cs : List Int) (v : Int) : Res Int :=
  match cs with
  | [] => .ub
  | c :: r => polyLoop v c v r

/-- The loop for `unsigned int`, which is computed modulo 2^32 (flut/math/polynomial.hpp:17). -/
def polyLoopU (v : Nat) : Nat → Nat → List Nat → Nat
  | result, _, [] => result
  | result, factor, c :: r => polyLoopU v ((result + factor * c % 2 ^ 32) % 2 ^ 32) (factor * v % 2 ^ 32) r

/-- `operator()` of a `polynomial< unsigned int, D >` (flut/math/polynomial.hpp:14-19). -/
def polyU (cs : List Nat) (v : Nat) : Res Nat :=
  match cs with
  | [] => .ub
  | c :: r => .ok (polyLoopU v c v r)

/-- What calls of a `delta< int >` return, one after the other (flut/math/delta.hpp:9). -/
def deltas (previous : Int) : List Int → Res (List Int)
  | [] => .ok []
  | x :: r => do
    let d ← chk (x - previous)
    let ds ← deltas x r
    .ok (d :: ds)

/-- What calls of a `delta< unsigned int >` return, one after the other (flut/math/delta.hpp:9). -/
def deltasU (previous : Nat) : List Nat → List Nat
  | [] => []
  | x :: r => (x + (2 ^ 32 - previous)) % 2 ^ 32 :: deltasU x r

/-- `limit_transfer` for `int` (flut/math/math.hpp:83). -/
def limitTransfer (x limit : Int) : Res Int := do
  let s ← chk (limit * limit)
  let d ← chk (x + limit)
  if d = 0 then .ub
  else do
    let q ← chk (Int.tdiv s d)
    chk (limit - q)

/-- `soft_clamp`, `soft_clamped` for `int` (flut/math/math.hpp:86-94). -/
def softClamp (v min max boundary : Int) : Res Int := do
  let w ← chk (max - min)
  let r ← chk (boundary * w)
  let hi ← chk (max - r)
  if v > hi then do
    let a ← chk (v - max)
    let x ← chk (a + r)
    let l ← limitTransfer x r
    chk (hi + l)
  else do
    let lo ← chk (min + r)
    if v < lo then do
      let x ← chk (lo - v)
      let l ← limitTransfer x r
      chk (lo - l)
    else .ok v

end IntPoly

end Flut
