import Verif.Basic

/-!
# `memoize` of a function that calls itself

`Model/Containers.lean` has `memoize` for a function that does not use the `memoize` itself. Here the function may call it, as in

    memoize< int( int ) > fib( [&]( int n ) { return n < 2 ? n : fib( n - 1 ) + fib( n - 2 ); } );

and its arguments are compared by the order of `std::map`, for which different arguments can be equivalent (`0.0` and `-0.0`).
-/

namespace Flut

/-- What the function does: it returns, throws, or calls the memoized function and goes on with the result. It does not catch what that throws. -/
inductive Body (A R : Type) where
  | ret (r : R)
  | fail (e : Exn)
  | ask (a : A) (k : R → Body A R)

namespace MemoRec

variable {A R : Type}

/-- State of a `memoize<R(Args...)>`, /repo/flut/memoize.hpp:28-29: the map, and (for observation only) the arguments with which the function was called. -/
structure State (A R : Type) where
  mem : List (A × R)
  calls : List A

/-- `mem_.find( tup )`; `eqv` holds if neither of two arguments is less than the other. -/
def find (eqv : A → A → Bool) (a : A) : List (A × R) → Option R
  | [] => none
  | (k, r) :: m => if eqv k a then some r else find eqv a m

/-- `mem_[ tup ] = r`. -/
def set (eqv : A → A → Bool) (a : A) (r : R) : List (A × R) → List (A × R)
  | [] => [(a, r)]
  | (k, q) :: m => if eqv k a then (k, r) :: m else (k, q) :: set eqv a r m

/-- Run the function, with what a call of the memoized function does. -/
def exec (call : A → State A R → Res R × State A R) : Body A R → State A R → Res R × State A R
  | .ret r, s => (.ok r, s)
  | .fail e, s => (.throws e, s)
  | .ask a k, s =>
    match call a s with
    | (.ok r, s) => exec call (k r) s
    | (x, s) => (x, s)

/-- `operator()`, /repo/flut/memoize.hpp:15-25. The first argument bounds how deep calls are nested; beyond that the result is `diverges`. -/
def call (eqv : A → A → Bool) (f : A → Body A R) : Nat → A → State A R → Res R × State A R
  | 0, _, s => (.diverges, s)
  | n + 1, a, s =>
    match find eqv a s.mem with
    | some r => (.ok r, s)
    | none =>
      match exec (call eqv f n) (f a) { s with calls := s.calls ++ [a] } with
      | (.ok r, s) => (.ok r, { s with mem := set eqv a r s.mem })
      | (x, s) => (x, s)

/-- A sequence of calls, each of which may throw: the results and the final state. -/
def callAll (eqv : A → A → Bool) (f : A → Body A R) (n : Nat) : List A → State A R → List (Res R) × State A R
  | [], s => ([], s)
  | a :: as, s =>
    let (r, s) := call eqv f n a s
    let (rs, s) := callAll eqv f n as s
    (r :: rs, s)

end MemoRec

end Flut
