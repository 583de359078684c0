import Verif.Model.Containers

/-!
# References to elements

`Model/Containers.lean` has the contents of a container. Here is when a reference to an element can be used: a `std::vector` that needs more room than it
has moves its elements, which invalidates all references to them, and one from which an element is removed invalidates references to that element and those
after it.
-/

namespace Flut

/-- A reference to an element of a vector: its place, and which of the elements that have been in this place it refers to. -/
structure Ref where
  idx : Nat
  epoch : Nat
  deriving DecidableEq

/-- The places of a vector: how many there is room for, and for each which reference to it is valid. `next` counts the changes. -/
structure Slots where
  cap : Nat
  next : Nat
  epoch : Nat → Nat

namespace Slots

/-- No room. -/
def empty : Slots := ⟨0, 1, fun _ => 0⟩

/-- Room for `n` elements. If there is less, the vector moves. How much room it makes then is up to the library, `grow`. -/
def room (grow : Nat → Nat → Nat) (n : Nat) (s : Slots) : Slots :=
  if n ≤ s.cap then s else ⟨max n (grow s.cap n), s.next + 1, fun _ => s.next⟩

/-- Elements from `i` on are removed or move. -/
def cut (i : Nat) (s : Slots) : Slots := { s with next := s.next + 1, epoch := fun j => if i ≤ j then s.next else s.epoch j }

/-- A reference to the element in place `i`. -/
def ref (i : Nat) (s : Slots) : Ref := ⟨i, s.epoch i⟩

/-- Whether a reference can be used. -/
def valid (r : Ref) (s : Slots) : Bool := r.epoch = s.epoch r.idx

end Slots

/-- A `flat_map` and the references to its values that a program has. -/
structure MapRefs (K V : Type) where
  map : FlatMap K V
  slots : Slots
  handle : Nat → Option Ref

namespace MapRefs

variable {K V : Type} [DecidableEq K]

/-- An empty `flat_map`. -/
def empty : MapRefs K V := ⟨[], .empty, fun _ => none⟩

/-- `map[ key ]`, /repo/flut/flat_map.hpp:41-48: the place of the value and what there is then. -/
def touch (grow : Nat → Nat → Nat) (dflt : V) (k : K) (m : MapRefs K V) : Nat × MapRefs K V :=
  let r := m.map.index dflt k
  (r.1, { m with map := r.2, slots := if m.map.find k = none then m.slots.room grow (m.map.length + 1) else m.slots })

/-- Reading through a reference. -/
def load (r : Ref) (m : MapRefs K V) : Res V :=
  if m.slots.valid r then
    match m.map[r.idx]? with
    | none => .ub
    | some kv => .ok kv.2
  else .ub

/-- Writing through a reference. -/
def store (r : Ref) (v : V) (m : MapRefs K V) : Res (MapRefs K V) :=
  if m.slots.valid r ∧ r.idx < m.map.length then .ok { m with map := m.map.modify r.idx fun kv => (kv.1, v) } else .ub

/-- What a program does with a `flat_map` and with references to its values. -/
inductive Op (K V : Type) where
  /-- `auto& h = map[ k ]` -/
  | ref (h : Nat) (k : K)
  /-- `map[ k ] = v` -/
  | assign (k : K) (v : V)
  /-- `map[ k ] = map[ j ]`. The library is built as C++14, which leaves open which side is evaluated first; since C++17 it is the right one. -/
  | assignFrom (rightFirst : Bool) (k j : K)
  /-- `h` -/
  | load (h : Nat)
  /-- `h = v` -/
  | store (h : Nat) (v : V)
  /-- `map.erase( map.find( k ) )` -/
  | erase (k : K)
  /-- `map.clear()` -/
  | clear

/-- One step, with what is read. -/
def step (grow : Nat → Nat → Nat) (dflt : V) : Op K V → MapRefs K V → Res (Option V × MapRefs K V)
  | .ref h k, m =>
    let (i, m) := m.touch grow dflt k
    .ok (none, { m with handle := fun h' => if h' = h then some (m.slots.ref i) else m.handle h' })
  | .assign k v, m => do
    let (i, m) := m.touch grow dflt k
    let m ← m.store (m.slots.ref i) v
    .ok (none, m)
  | .assignFrom rightFirst k j, m => do
    let (i, m) := m.touch grow dflt (if rightFirst then j else k)
    let r := m.slots.ref i
    let (i, m) := m.touch grow dflt (if rightFirst then k else j)
    let r' := m.slots.ref i
    let v ← m.load (if rightFirst then r else r')
    let m ← m.store (if rightFirst then r' else r) v
    .ok (none, m)
  | .load h, m =>
    match m.handle h with
    | none => .ub
    | some r => do
      let v ← m.load r
      .ok (some v, m)
  | .store h v, m =>
    match m.handle h with
    | none => .ub
    | some r => do
      let m ← m.store r v
      .ok (none, m)
  | .erase k, m =>
    match m.map.find k with
    | none => .ub
    | some i => .ok (none, { m with map := m.map.eraseIdx i, slots := m.slots.cut i })
  | .clear, m => .ok (none, { m with map := [], slots := m.slots.cut 0 })

/-- A program, with everything that it reads. -/
def run (grow : Nat → Nat → Nat) (dflt : V) : List (Op K V) → MapRefs K V → Res (List V × MapRefs K V)
  | [], m => .ok ([], m)
  | op :: ops, m => do
    let (a, m) ← m.step grow dflt op
    let (as, m) ← m.run grow dflt ops
    .ok (a.toList ++ as, m)

end MapRefs

end Flut
