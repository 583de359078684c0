import Verif.Basic
import Mathlib.Algebra.Field.Basic
import Mathlib.Algebra.Order.Field.Basic
import Mathlib.Data.List.Sort

/-!
# `flut/container_tools.hpp`

Numbers are an ordered field (exact arithmetic). `std::sort` on a linear order has only one possible result, so it is
`List.insertionSort`; where elements may be equivalent without being equal (`sort_indices`) the sort function is a parameter.
-/

namespace Flut.Tools

variable {K : Type}

/-- `average` (flut/container_tools.hpp:33-37): `accumulate / size`. Dividing by a size of zero has no value here
(undefined for integers, NaN for floating point). -/
def average [Field K] (v : List K) : Res K :=
  if v.length = 0 then .ub else .ok (v.foldl (· + ·) 0 / (v.length : K))

/-- `sort_indices` (flut/container_tools.hpp:39-44), for the given implementation of `std::sort` with a comparison
function. -/
def sortIndices [LT K] [DecidableLT K] (sort : (Nat → Nat → Bool) → List Nat → List Nat) (v : List K) : List Nat :=
  sort (fun i1 i2 => match v[i1]?, v[i2]? with
    | some a, some b => decide (a < b)
    | _, _ => false) (List.range v.length)

/-- `sorted_copy` (flut/container_tools.hpp:46). -/
def sortedCopy [LE K] [DecidableLE K] (v : List K) : List K := v.insertionSort (· ≤ ·)

/-- `v[ i ]` of a `std::vector`. -/
def index (v : List K) (i : Nat) : Res K := match v[i]? with | some x => .ok x | none => .ub

/-- `median` (flut/container_tools.hpp:48-54). -/
def median [Field K] [LE K] [DecidableLE K] (vec : List K) : Res K :=
  if 0 < vec.length then
    let s := vec.length
    let v := sortedCopy vec
    if s % 2 = 1 then index v (s / 2)
    else do
      let a ← index v (s / 2)
      let b ← index v (s / 2 - 1)
      .ok ((a + b) / 2)
  else .throws .assertion

/-- `std::partial_sort_copy` into a vector of `count` zeros (flut/container_tools.hpp:57-58): the smallest elements,
sorted, over the first `min count size` entries. -/
def partialSortCopy [LE K] [DecidableLE K] (vec : List K) (result : List K) : List K :=
  (sortedCopy vec).take result.length ++ result.drop vec.length

/-- `top_average` (flut/container_tools.hpp:56-60). -/
def topAverage [Field K] [LE K] [DecidableLE K] (vec : List K) (count : Nat) : Res K :=
  average (partialSortCopy vec (List.replicate count 0))

/-- `find_index` (flut/container_tools.hpp:62-66); `none` is `no_index`. -/
def findIndex [DecidableEq K] (vec : List K) (val : K) : Option Nat :=
  let rec go (i : Nat) : List K → Option Nat
    | [] => none
    | x :: xs => if x = val then some i else go (i + 1) xs
  go 0 vec

/-- `back_index` (flut/container_tools.hpp:68-69). -/
def backIndex (vec : List K) : Res Nat := if 0 < vec.length then .ok (vec.length - 1) else .throws .assertion

/-! `view_if` (flut/container_tools.hpp:71-89). An iterator of the underlying container is the list of elements from its
position on; the end iterator is the empty list. -/

/-- `iterator::next_match` (flut/container_tools.hpp:75). -/
def nextMatch (pred : K → Bool) : List K → List K
  | [] => []
  | x :: xs => if pred x then x :: xs else nextMatch pred xs

/-- The iterator constructor (flut/container_tools.hpp:74), hence `begin` and `end` (85-86). -/
def viewAt (pred : K → Bool) (pos : List K) : List K := nextMatch pred pos

/-- `operator++` (flut/container_tools.hpp:76): incrementing the end iterator is undefined. -/
def viewNext (pred : K → Bool) : List K → Res (List K)
  | [] => .ub
  | _ :: xs => .ok (nextMatch pred xs)

/-- `operator*` (flut/container_tools.hpp:80). -/
def viewGet : List K → Res K
  | [] => .ub
  | x :: _ => .ok x

/-- `for ( auto& x : view )`: the elements visited, in order; at most `fuel` steps are taken. -/
def viewLoop (pred : K → Bool) : Nat → List K → Res (List K)
  | fuel, pos =>
    if pos.length = (viewAt pred []).length then .ok []
    else match fuel with
      | 0 => .diverges
      | fuel + 1 => do
        let x ← viewGet pos
        let pos' ← viewNext pred pos
        let xs ← viewLoop pred fuel pos'
        .ok (x :: xs)

/-- All elements visited by iterating `make_view_if( cont, pred )` (flut/container_tools.hpp:100-106). -/
def viewAll (pred : K → Bool) (cont : List K) : Res (List K) := viewLoop pred cont.length (viewAt pred cont)

end Flut.Tools
