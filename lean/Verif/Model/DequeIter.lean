import Verif.Model.Containers

/-!
# Iterators of a `circular_deque`

/repo/flut/circular_deque.hpp:48-71. An iterator has an index and a reference to the buffer of its deque, which is the one of the functions below. `difference_type` is that of `std::iterator`;
only compilers that look it up when the template is used accept line 56. `it++` (line 54) returns a reference to a variable that is gone, and is not modelled.
-/

namespace Flut.CDeque

variable {α : Type}

/-- `begin()`, circular_deque.hpp:68. -/
def beginIt (d : CDeque α) : Nat := d.front

/-- `end()`, circular_deque.hpp:69. -/
def endIt (d : CDeque α) : Nat := (d.front + d.size) % 2 ^ 64

/-- `it + v`, and `it - v` with `-v`, circular_deque.hpp:55-56: the `int` is converted to `size_t`. -/
def plusIt (it : Nat) (v : Int) : Nat := ((it + v) % 2 ^ 64).toNat

/-- `++it`, circular_deque.hpp:53. -/
def incIt (it : Nat) : Nat := (it + 1) % 2 ^ 64

/-- `it - other`, circular_deque.hpp:57: a `size_t` that is converted to `ptrdiff_t`. -/
def diffIt (it other : Nat) : Int := Int.bmod (it - other) (2 ^ 64)

/-- `it == other`, circular_deque.hpp:58. -/
def sameIt (it other : Nat) : Bool := other = it

/-- `*it`, circular_deque.hpp:60. -/
def loadIt (d : CDeque α) (it : Nat) : Res α := do
  let i ← modC it d.buffer.length
  d.bufGet i

/-- `*it = v`. -/
def storeIt (d : CDeque α) (it : Nat) (v : α) : Res (CDeque α) := do
  let i ← modC it d.buffer.length
  d.bufSet i v

/-- `while ( it != end ) ++it`, for at most `n` steps: whether it has ended. -/
def reaches (n it last : Nat) : Bool :=
  match n with
  | 0 => sameIt it last
  | n + 1 => if sameIt it last then true else reaches n (incIt it) last

end Flut.CDeque
