import Verif.Model.Float

/-!
# Searching in `flut/container_tools.hpp`

An iterator is the index it is at; the end iterator is the size. `lt` is `<` and `eq` is `==` of the elements. The loops are those of
the standard library, which it fixes by the comparisons they make.
-/

namespace Flut

namespace Search

variable {α : Type}

/-- The loop of `std::min_element`: at index `i`, with the smallest one so far at index `best`. -/
def minFrom (lt : α → α → Bool) : List α → Nat → Nat → α → Nat
  | [], _, best, _ => best
  | x :: xs, i, best, b => if lt x b then minFrom lt xs (i + 1) i x else minFrom lt xs (i + 1) best b

/-- `min_element` (flut/container_tools.hpp:21-25). -/
def minElement (lt : α → α → Bool) : List α → Nat
  | [] => 0
  | x :: xs => minFrom lt xs 1 0 x

/-- The loop of `std::max_element`. -/
def maxFrom (lt : α → α → Bool) : List α → Nat → Nat → α → Nat
  | [], _, best, _ => best
  | x :: xs, i, best, b => if lt b x then maxFrom lt xs (i + 1) i x else maxFrom lt xs (i + 1) best b

/-- `max_element` (flut/container_tools.hpp:27-31). -/
def maxElement (lt : α → α → Bool) : List α → Nat
  | [] => 0
  | x :: xs => maxFrom lt xs 1 0 x

/-- `find_if` (flut/container_tools.hpp:15-19), from index `i`. -/
def findIfFrom (p : α → Bool) : List α → Nat → Nat
  | [], i => i
  | x :: xs, i => if p x then i else findIfFrom p xs (i + 1)

/-- `find_if` (flut/container_tools.hpp:15-19). -/
def findIf (p : α → Bool) (l : List α) : Nat := findIfFrom p l 0

/-- `find` (flut/container_tools.hpp:9-10). -/
def find (eq : α → α → Bool) (l : List α) (e : α) : Nat := findIf (fun x => eq x e) l

/-- `find_index` (flut/container_tools.hpp:62-66); `none` is `no_index`. -/
def findIndex (eq : α → α → Bool) (l : List α) (e : α) : Option Nat :=
  let it := find eq l e
  if it = l.length then none else some it

/-- `==` of floating-point numbers: false if either is not a number; the two zeros are equal. -/
def fltEq : Flt → Flt → Bool
  | .fin s m, .fin s' m' => (if s then -m else m) = (if s' then -m' else m')
  | .inf s, .inf s' => s == s'
  | _, _ => false

end Search

end Flut
