import Verif.Model.Containers
import Verif.Model.DynArray
import Verif.Model.FloatFilter

/-!
# Objects that are given references to their own elements

`iir_filter::operator()`, `circular_deque::push_back` and `push_front`, and `dynarray::assign` take a `const T&`. If the argument
is a part of the object itself, it is read when the body reads it, which can be after parts of the object were changed.
-/

namespace Flut

/-! ### `iir_filter` -/

namespace Iir

variable {K : Type}

/-- What the argument of `operator()` refers to: something outside of the filter, or `x_[ i ]` or `y_[ i ]` of the filter itself;
`operator()() const` and the previous call return `y_[ 0 ]` (flut/filter.hpp:25, 27). -/
inductive Arg (K : Type) where
  | value (v : K)
  | input (i : Nat)
  | output (i : Nat)

/-- The argument as read in a state of the filter. -/
def Arg.read (f : Iir K) : Arg K → K
  | .value v => v
  | .input i => f.x i
  | .output i => f.y i

/-- The loop of flut/filter.hpp:18-21, from `i` down to 1, on both arrays. -/
def shiftBoth (i : Nat) (f : Iir K) : Iir K := { f with x := shiftLoop i f.x, y := shiftLoop i f.y }

/-- `operator()( x )` (flut/filter.hpp:12-26) for an argument that is read where the code reads it: for `b0_ * x` (line 13), and
for `x_[ 0 ] = x` after the loop (line 23). `sum` is lines 13-15. -/
def stepRef (sum : Iir K → K → K) (N : Nat) (f : Iir K) (r : Arg K) : K × Iir K :=
  let y := sum f (r.read f)
  let g := shiftBoth (N - 1) f
  let g := { g with x := setZero g.x (r.read g) }
  let g := { g with y := setZero g.y y }
  (g.y 0, g)

/-- A sequence of calls: the values returned and the filter in the end. -/
def runRef (sum : Iir K → K → K) (N : Nat) : List (Arg K) → Iir K → List K × Iir K
  | [], f => ([], f)
  | r :: rs, f =>
    let s := stepRef sum N f r
    let t := runRef sum N rs s.2
    (s.1 :: t.1, t.2)

/-- Lines 13-15 of flut/filter.hpp for exact numbers. -/
def exactSum [Field K] (N : Nat) (f : Iir K) (x : K) : K := sumLoop f N 0 (f.b0 * x)

/-- Lines 13-15 of flut/filter.hpp for floating-point numbers. -/
def floatSum (m : Fmt) (N : Nat) (f : Iir Flt) (x : Flt) : Flt := FloatMath.iirSum m f N 0 (m.mul f.b0 x)

end Iir

/-! ### `circular_deque` -/

namespace CDeque

variable {α : Type}

/-- `push_back( value )` (flut/circular_deque.hpp:18-21 and 33) for a reference to the element at index `r` of the buffer. The
standard library lets `vector::insert` take an element of the vector, which it then copies first. -/
def pushBackRef (r : Nat) (d : CDeque α) : Res (CDeque α) :=
  let d := { d with size := d.size + 1 }
  if d.size > d.capacity then do
    let v ← d.bufGet r
    d.bufInsert (d.front + d.size - 1) v
  else do
    let i ← modC (d.front + d.size - 1) d.capacity
    let v ← d.bufGet r
    d.bufSet i v

/-- `push_front( value )` (flut/circular_deque.hpp:22-25 and 36) for a reference to the element at index `r` of the buffer. -/
def pushFrontRef (r : Nat) (d : CDeque α) : Res (CDeque α) :=
  let d := { d with size := d.size + 1 }
  if d.size > d.capacity then do
    let v ← d.bufGet r
    d.bufInsert d.front v
  else do
    let i ← modC (d.front + d.capacity - 1) d.capacity
    let d := { d with front := i }
    let v ← d.bufGet r
    d.bufSet d.front v

/-- The place that `d[ i ]` refers to (flut/circular_deque.hpp:27). -/
def refAt (d : CDeque α) (i : Nat) : Res Nat := modC (d.front + i) d.buffer.length

/-- The place that `front()` refers to (flut/circular_deque.hpp:36). -/
def frontRef (d : CDeque α) : Res Nat := if d.size > 0 then .ok d.front else .throws .assertion

/-- The place that `back()` refers to (flut/circular_deque.hpp:33). -/
def backRef (d : CDeque α) : Res Nat :=
  if d.size > 0 then modC (d.front + d.size - 1) d.capacity else .throws .assertion

/-- `auto& x = d.front(); d.pop_front(); d.push_back( x );` or, for `false`,
`auto& x = d.back(); d.pop_back(); d.push_front( x );`. -/
def turn : Bool → CDeque α → Res (CDeque α)
  | true, d => do
    let r ← d.frontRef
    let d ← d.popFront
    d.pushBackRef r
  | false, d => do
    let r ← d.backRef
    let d ← d.popBack
    d.pushFrontRef r

/-- Several such turns. -/
def turns : List Bool → CDeque α → Res (CDeque α)
  | [], d => .ok d
  | b :: bs, d => do
    let d ← turn b d
    turns bs d

end CDeque

/-! ### `dynarray` -/

namespace DynArray

variable {α : Type}

/-- The loop of `std::fill` over elements `i` to `i + n`, with a reference to element `r` of the same array, which is read in
every round. -/
def fillLoop (h : Heap α) (a : DynArray) (r : Nat) : Nat → Nat → Res (Heap α)
  | 0, _ => .ok h
  | n + 1, i => do
    let v ← a.get h r
    let h ← a.set h i v
    fillLoop h a r n (i + 1)

/-- `a.assign( a[ r ] )` (flut/dynarray.hpp:40). -/
def fillRef (h : Heap α) (a : DynArray) (r : Nat) : Res (Heap α) := do
  let n ← a.size
  fillLoop h a r n 0

end DynArray

end Flut
