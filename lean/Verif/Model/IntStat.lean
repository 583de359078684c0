import Verif.Basic
import Mathlib.Data.List.Sort

/-!
# Averages, medians and means of numbers of type `int`
-/

namespace Flut

namespace IntStat

/-- The result of an operation on `int`: overflow is undefined. -/
def chk (x : Int) : Res Int := if -2 ^ 31 ≤ x ∧ x < 2 ^ 31 then .ok x else .ub

/-- `std::accumulate` and the sums in `compute_channel_means`: one addition after the other. -/
def sumFrom : Int → List Int → Res Int
  | a, [] => .ok a
  | a, x :: r => do
    let b ← chk (a + x)
    sumFrom b r

/-- `average` of a `vector< int >` (flut/container_tools.hpp:33-37). -/
def average (l : List Int) : Res Int := do
  let s ← sumFrom 0 l
  let n ← chk l.length
  if n = 0 then .ub else chk (Int.tdiv s n)

/-- `median` of a `vector< int >` (flut/container_tools.hpp:46-54). -/
def median (l : List Int) : Res Int :=
  if l.length = 0 then .throws .assertion
  else
    let v := l.insertionSort (· ≤ ·)
    let s := l.length
    if s % 2 = 1 then
      match v[s / 2]? with
      | some x => .ok x
      | none => .ub
    else
      match v[s / 2]?, v[s / 2 - 1]? with
      | some x, some y => do
        let t ← chk (x + y)
        .ok (Int.tdiv t 2)
      | _, _ => .ub

/-- A number of 64 bits without sign as an `int`: its last 32 bits. -/
def toInt (x : Int) : Int := (x + 2 ^ 31) % 2 ^ 32 - 2 ^ 31

/-- `m /= n` for an `int` and a `size_t` (flut/buffer/data_algorithms.hpp:16): both are taken as numbers of 64 bits without sign, and
the result is converted back. -/
def divideBySize (m : Int) (n : Nat) : Res Int := if n = 0 then .ub else .ok (toInt (m % 2 ^ 64 / n))

/-- `compute_channel_means` of a `storage< int >` (flut/buffer/data_algorithms.hpp:7-19), for the values of each channel. Simplification:
the channels are summed one after the other instead of all at once, which is the same because they do not depend on each other. -/
def channelMeans (channels : List (List Int)) : Res (List Int) :=
  match channels with
  | [] => .ok []
  | c :: r => do
    let s ← sumFrom 0 c
    let m ← divideBySize s c.length
    let ms ← channelMeans r
    .ok (m :: ms)

/-- The sum of products of differences from the means (flut/buffer/data_algorithms.hpp:33-35). -/
def productsFrom (ma mb : Int) : Int → List (Int × Int) → Res Int
  | v, [] => .ok v
  | v, (a, b) :: r => do
    let x ← chk (a - ma)
    let y ← chk (b - mb)
    let z ← chk (x * y)
    let w ← chk (v + z)
    productsFrom ma mb w r

/-- An entry of `compute_covariance` of a `storage< int >` (flut/buffer/data_algorithms.hpp:31-36), for the values of two channels, in
pairs. -/
def covariance (ps : List (Int × Int)) : Res Int := do
  let ms ← channelMeans [ps.map Prod.fst, ps.map Prod.snd]
  match ms with
  | [ma, mb] => do
    let v ← productsFrom ma mb 0 ps
    divideBySize v ps.length
  | _ => .ub

end IntStat

end Flut
