import Verif.Basic

/-!
# `flut/dynarray.hpp` and `flut/memory_tools.hpp`

Memory is modelled as numbered blocks, because what matters here is who owns which block. An element that was never written is
`none`.
-/

namespace Flut

/-- Allocated memory. -/
structure Heap (α : Type) where
  cell : Nat → Option (List (Option α)) := fun _ => none
  next : Nat := 0

namespace Heap

variable {α : Type}

/-- `new T[ n ]`, or `new T( x )` as a block of one element: the block gets a number that was not used before. -/
def alloc (h : Heap α) (xs : List (Option α)) : Heap α × Nat :=
  ({ cell := fun b => if b = h.next then some xs else h.cell b, next := h.next + 1 }, h.next)

/-- `delete[]`, `delete`, of the block of a `unique_ptr`, if there is one. -/
def free (h : Heap α) : Option Nat → Heap α
  | none => h
  | some b => { h with cell := fun c => if c = b then none else h.cell c }

/-- Write a whole block. -/
def write (h : Heap α) (b : Nat) (xs : List (Option α)) : Heap α :=
  { h with cell := fun c => if c = b then some xs else h.cell c }

end Heap

/-- The members `data_` and `end_` (flut/dynarray.hpp:46-47); `end_` is a block and an offset. -/
structure DynArray where
  data : Option Nat := none
  stop : Option (Nat × Nat) := none
deriving DecidableEq

namespace DynArray

variable {α : Type}

/-- `size()` (flut/dynarray.hpp:38): the difference of two pointers, which must be into the same block or both null. -/
def size (a : DynArray) : Res Nat :=
  match a.data, a.stop with
  | none, none => .ok 0
  | some b, some (c, k) => if b = c then .ok k else .ub
  | _, _ => .ub

/-- The elements from `begin()` to `end()` (flut/dynarray.hpp:30-36). -/
def elements (h : Heap α) (a : DynArray) : Res (List (Option α)) := do
  let n ← a.size
  match a.data with
  | none => .ok []
  | some b => match h.cell b with
    | none => .ub
    | some xs => if n ≤ xs.length then .ok (xs.take n) else .ub

/-- `operator[]` for reading (flut/dynarray.hpp:24-25). -/
def get (h : Heap α) (a : DynArray) (i : Nat) : Res α :=
  match a.data.bind h.cell with
  | none => .ub
  | some xs => match xs[i]? with
    | some (some x) => .ok x
    | _ => .ub

/-- `at` for reading (flut/dynarray.hpp:27-28). -/
def get' (h : Heap α) (a : DynArray) (i : Nat) : Res α := do
  let n ← a.size
  if n ≤ i then .throws .flutError else a.get h i

/-- `operator[]` for writing (flut/dynarray.hpp:24). -/
def set (h : Heap α) (a : DynArray) (i : Nat) (x : α) : Res (Heap α) :=
  match a.data with
  | none => .ub
  | some b => match h.cell b with
    | none => .ub
    | some xs => if i < xs.length then .ok (h.write b (xs.set i (some x))) else .ub

/-- `at` for writing (flut/dynarray.hpp:27). -/
def set' (h : Heap α) (a : DynArray) (i : Nat) (x : α) : Res (Heap α) := do
  let n ← a.size
  if n ≤ i then .throws .flutError else a.set h i x

/-- `assign( v )` (flut/dynarray.hpp:40). -/
def fill (h : Heap α) (a : DynArray) (v : α) : Res (Heap α) := do
  let xs ← a.elements h
  match a.data with
  | none => .ok h
  | some b => .ok (h.write b (xs.map fun _ => some v))

/-- `std::copy( o.begin(), o.end(), begin() )` into a new block of the right size; copying elements that were never written is
undefined. -/
def copyInto (h : Heap α) (o : DynArray) (b : Nat) : Res (Heap α) := do
  let xs ← o.elements h
  if xs.all Option.isSome then .ok (h.write b xs) else .ub

/-- `dynarray( n )` (flut/dynarray.hpp:16); `init` is what `new T[ n ]` leaves in an element (`none` for numbers). -/
def make (init : Option α) (h : Heap α) (n : Nat) : Heap α × DynArray :=
  let (h, b) := h.alloc (List.replicate n init)
  (h, { data := some b, stop := some (b, n) })

/-- `dynarray( n, v )` (flut/dynarray.hpp:17). -/
def makeFilled (init : Option α) (h : Heap α) (n : Nat) (v : α) : Res (Heap α × DynArray) := do
  let (h, a) := make init h n
  let h ← a.fill h v
  .ok (h, a)

/-- `dynarray( const dynarray& )` (flut/dynarray.hpp:18). -/
def copyOf (init : Option α) (h : Heap α) (o : DynArray) : Res (Heap α × DynArray) := do
  let n ← o.size
  let (h, b) := h.alloc (List.replicate n init)
  let m ← o.size
  let h ← o.copyInto h b
  .ok (h, { data := some b, stop := some (b, m) })

/-- `dynarray( dynarray&& )` (flut/dynarray.hpp:19): the new array and what becomes of the old one, whose `end_` stays. -/
def moveOf (o : DynArray) : DynArray × DynArray := (o, { o with data := none })

/-- `operator=( const dynarray& )` from another array (flut/dynarray.hpp:20). -/
def assignFrom (init : Option α) (h : Heap α) (a o : DynArray) : Res (Heap α × DynArray) := do
  let n ← o.size
  let (h, b) := h.alloc (List.replicate n init)
  let h := h.free a.data
  let m ← o.size
  let h ← o.copyInto h b
  .ok (h, { data := some b, stop := some (b, m) })

/-- `a = a` (flut/dynarray.hpp:20): `data_` is replaced before `o.size()` is asked for the second time. -/
def assignSelf (init : Option α) (h : Heap α) (a : DynArray) : Res (Heap α × DynArray) := do
  let n ← a.size
  let (h, b) := h.alloc (List.replicate n init)
  let h := h.free a.data
  let a := { a with data := some b }
  let m ← a.size
  let a := { a with stop := some (b, m) }
  let h ← a.copyInto h b
  .ok (h, a)

end DynArray

/-- Arrays in variables; a variable is `none` after its array was destroyed. -/
structure Arrays (α : Type) where
  heap : Heap α := {}
  vars : List (Option DynArray) := []

/-- What can be done with arrays in variables. New arrays get the next variable. Move assignment does not compile
(flut/dynarray.hpp:21 moves a pointer into a `unique_ptr`). -/
inductive ArrayOp (α : Type) where
  | empty
  | make (n : Nat)
  | makeFilled (n : Nat) (v : α)
  | copyOf (j : Nat)
  | moveOf (j : Nat)
  | assign (i j : Nat)
  | set (i k : Nat) (v : α)
  | setAt (i k : Nat) (v : α)
  | fill (i : Nat) (v : α)
  | destroy (i : Nat)

namespace Arrays

variable {α : Type}

/-- The array in a variable. -/
def var (s : Arrays α) (i : Nat) : Res DynArray :=
  match s.vars[i]? with
  | some (some a) => .ok a
  | _ => .ub

/-- A new variable. -/
def push (s : Arrays α) (r : Heap α × DynArray) : Arrays α := { heap := r.1, vars := s.vars ++ [some r.2] }

/-- One operation (flut/dynarray.hpp:15-40). -/
def step (init : Option α) (s : Arrays α) : ArrayOp α → Res (Arrays α)
  | .empty => .ok (s.push (s.heap, {}))
  | .make n => .ok (s.push (DynArray.make init s.heap n))
  | .makeFilled n v => do
    let r ← DynArray.makeFilled init s.heap n v
    .ok (s.push r)
  | .copyOf j => do
    let o ← s.var j
    let r ← DynArray.copyOf init s.heap o
    .ok (s.push r)
  | .moveOf j => do
    let o ← s.var j
    .ok { s with vars := s.vars.set j (some (DynArray.moveOf o).2) ++ [some (DynArray.moveOf o).1] }
  | .assign i j => do
    let a ← s.var i
    let o ← s.var j
    let r ← if i = j then DynArray.assignSelf init s.heap a else DynArray.assignFrom init s.heap a o
    .ok { heap := r.1, vars := s.vars.set i (some r.2) }
  | .set i k v => do
    let a ← s.var i
    let h ← a.set s.heap k v
    .ok { s with heap := h }
  | .setAt i k v => do
    let a ← s.var i
    let h ← a.set' s.heap k v
    .ok { s with heap := h }
  | .fill i v => do
    let a ← s.var i
    let h ← a.fill s.heap v
    .ok { s with heap := h }
  | .destroy i => do
    let a ← s.var i
    .ok { heap := s.heap.free a.data, vars := s.vars.set i none }

/-- A history; what throws has no effect. -/
def run (init : Option α) (s : Arrays α) : List (ArrayOp α) → Res (Arrays α)
  | [] => .ok s
  | op :: ops => match s.step init op with
    | .ok s => s.run init ops
    | .throws _ => s.run init ops
    | .ub => .ub
    | .diverges => .diverges

end Arrays

/-! ## `memory_tools.hpp` -/

/-- `clone( const unique_ptr< T >& )` (flut/memory_tools.hpp:9-11). -/
def clone {α : Type} (h : Heap α) (p : Option Nat) : Res (Heap α × Option Nat) :=
  match p.bind h.cell with
  | some [some x] => .ok ((h.alloc [some x]).1, some (h.alloc [some x]).2)
  | _ => .ub

/-- `clone( const vector< unique_ptr< T > >& )` (flut/memory_tools.hpp:14-20). -/
def cloneAll {α : Type} : Heap α → List (Option Nat) → Res (Heap α × List (Option Nat))
  | h, [] => .ok (h, [])
  | h, p :: ps => do
    let (h, q) ← clone h p
    let (h, qs) ← cloneAll h ps
    .ok (h, q :: qs)

end Flut
