import Verif.Basic

/-!
# Containers: `flat_map`, `factory`, `sorted_vector`, `circular_deque`, `memoize`, `dictionary`, `flag_set`

Element types are parameters. `==` on keys is equality.
-/

namespace Flut

/-! ### `flat_map` -/

/-- `flat_map<K,V>`, /repo/flut/flat_map.hpp:9: a vector of pairs. -/
abbrev FlatMap (K V : Type) := List (K × V)

namespace FlatMap

variable {K V : Type} [DecidableEq K]

/-- `find`, /repo/flut/flat_map.hpp:27-33: the index of the first pair with the key, `none` for `end()`. -/
def find (key : K) : FlatMap K V → Option Nat
  | [] => none
  | (k, _) :: r => if k = key then some 0 else (find key r).map (· + 1)

/-- `count`, /repo/flut/flat_map.hpp:35-37. -/
def count (key : K) (m : FlatMap K V) : Nat := m.countP fun kv => decide (kv.1 = key)

/-- `has_key`, /repo/flut/flat_map.hpp:39. -/
def hasKey (key : K) (m : FlatMap K V) : Bool := (find key m).isSome

/-- `operator[]`, /repo/flut/flat_map.hpp:41-48: the map after the call and the index of the value referred to. `dflt`
is `V()`. -/
def index (dflt : V) (key : K) (m : FlatMap K V) : Nat × FlatMap K V :=
  match find key m with
  | none => (m.length, m ++ [(key, dflt)])
  | some i => (i, m)

/-- `map[ key ] = v`. -/
def assign (dflt : V) (key : K) (v : V) (m : FlatMap K V) : FlatMap K V :=
  let r := index dflt key m
  r.2.modify r.1 fun kv => (kv.1, v)

/-- `at`, /repo/flut/flat_map.hpp:52-62, also the const `operator[]` (line 50). -/
def at' (key : K) (m : FlatMap K V) : Res V :=
  match find key m with
  | none => .throws .flutError
  | some i => match m[i]? with
    | none => .ub
    | some kv => .ok kv.2

/-- `map.erase( map.find( key ) )`; `std::vector::erase( end() )` is undefined. -/
def eraseKey (key : K) (m : FlatMap K V) : Res (FlatMap K V) :=
  match find key m with
  | none => .ub
  | some i => .ok (m.eraseIdx i)

/-- Operations that change a `flat_map`. -/
inductive Op (K V : Type) where
  | assign (k : K) (v : V)
  | touch (k : K)
  | erase (k : K)
  | clear

/-- One operation. `touch` is `map[ key ]` without assignment; `clear` is that of `std::vector`. -/
def run (dflt : V) : Op K V → FlatMap K V → Res (FlatMap K V)
  | .assign k v, m => .ok (m.assign dflt k v)
  | .touch k, m => .ok (m.index dflt k).2
  | .erase k, m => m.eraseKey k
  | .clear, _ => .ok []

/-- A history of operations. -/
def runAll (dflt : V) : List (Op K V) → FlatMap K V → Res (FlatMap K V)
  | [], m => .ok m
  | op :: ops, m => do
    let m ← run dflt op m
    runAll dflt ops m

end FlatMap

/-! ### `factory` -/

namespace Factory

variable {A T : Type}

/-- `register_class`, /repo/flut/factory.hpp:23-24: `func_map_[ name ] = creator`. The map starts with empty
`std::function`s, which are overwritten at once; any creator can stand for them. -/
def register (name : Str) (creator : A → T) (m : FlatMap Str (A → T)) : FlatMap Str (A → T) :=
  m.assign creator name creator

/-- `create`, /repo/flut/factory.hpp:27-31 and 38. -/
def create (name : Str) (args : A) (m : FlatMap Str (A → T)) : Res T :=
  match m.find name with
  | none => .throws .flutError
  | some i => match m[i]? with
    | none => .ub
    | some kv => .ok (kv.2 args)

/-- `try_create`, /repo/flut/factory.hpp:34-35. -/
def tryCreate (name : Str) (args : A) (m : FlatMap Str (A → T)) : Res (Option T) :=
  match m.find name with
  | none => .ok none
  | some i => match m[i]? with
    | none => .ub
    | some kv => .ok (some (kv.2 args))

/-- `has_type`, /repo/flut/factory.hpp:41. -/
def hasType (name : Str) (m : FlatMap Str (A → T)) : Bool := (m.find name).isSome

/-- `empty`, /repo/flut/factory.hpp:40. -/
def empty (m : FlatMap Str (A → T)) : Bool := m.isEmpty

/-- A history of registrations, starting from an empty factory. -/
def registerAll (rs : List (Str × (A → T))) : FlatMap Str (A → T) :=
  rs.foldl (fun m r => register r.1 r.2 m) []

end Factory

/-! ### `sorted_vector` -/

namespace SortedVector

variable {α : Type}

/-- `std::upper_bound( begin, end, e )` by its contract: the range must be partitioned with respect to `!(e < x)`, and
the result is the partition point. -/
def upperBound (lt : α → α → Bool) (e : α) (l : List α) : Res Nat :=
  let i := (l.takeWhile fun x => !lt e x).length
  if (l.drop i).all (fun x => lt e x) then .ok i else .ub

/-- `insert`, /repo/flut/sorted_vector.hpp:24-26. -/
def insert (lt : α → α → Bool) (e : α) (l : List α) : Res (List α) := do
  let i ← upperBound lt e l
  .ok (l.insertIdx i e)

/-- Operations that change a `sorted_vector`. -/
inductive Op (α : Type) where
  | insert (e : α)
  | erase (i : Nat)
  | clear

/-- One operation; `erase` is that of `std::vector`, with an index for the iterator. -/
def run (lt : α → α → Bool) : Op α → List α → Res (List α)
  | .insert e, l => insert lt e l
  | .erase i, l => if i < l.length then .ok (l.eraseIdx i) else .ub
  | .clear, _ => .ok []

/-- A history of operations. -/
def runAll (lt : α → α → Bool) : List (Op α) → List α → Res (List α)
  | [], l => .ok l
  | op :: ops, l => do
    let l ← run lt op l
    runAll lt ops l

end SortedVector

/-! ### `circular_deque` -/

/-- `circular_deque<T>`, /repo/flut/circular_deque.hpp:74-76. `size_t` overflow is not modelled. -/
structure CDeque (α : Type) where
  front : Nat
  size : Nat
  buffer : List α
  deriving DecidableEq, Repr

namespace CDeque

variable {α : Type}

/-- The constructor, /repo/flut/circular_deque.hpp:15; `dflt` is `T()`. -/
def new (dflt : α) (capacity : Nat) : CDeque α := ⟨0, 0, List.replicate capacity dflt⟩

/-- `capacity`, /repo/flut/circular_deque.hpp:46. -/
def capacity (d : CDeque α) : Nat := d.buffer.length

/-- `buffer_.insert( buffer_.begin() + pos, value )`; undefined beyond the end. -/
def bufInsert (d : CDeque α) (pos : Nat) (v : α) : Res (CDeque α) :=
  if pos ≤ d.buffer.length then .ok { d with buffer := d.buffer.insertIdx pos v } else .ub

/-- `buffer_[ pos ] = value`. -/
def bufSet (d : CDeque α) (pos : Nat) (v : α) : Res (CDeque α) :=
  if pos < d.buffer.length then .ok { d with buffer := d.buffer.set pos v } else .ub

/-- `buffer_[ pos ]`. -/
def bufGet (d : CDeque α) (pos : Nat) : Res α :=
  match d.buffer[pos]? with
  | some v => .ok v
  | none => .ub

/-- Remainder; by zero it is undefined. -/
def modC (a b : Nat) : Res Nat := if b = 0 then .ub else .ok (a % b)

/-- `push_back`, /repo/flut/circular_deque.hpp:18-21 and 33. -/
def pushBack (v : α) (d : CDeque α) : Res (CDeque α) :=
  let d := { d with size := d.size + 1 }
  if d.size > d.capacity then d.bufInsert (d.front + d.size - 1) v
  else do
    let i ← modC (d.front + d.size - 1) d.capacity
    d.bufSet i v

/-- `push_front`, /repo/flut/circular_deque.hpp:22-25 and 36. -/
def pushFront (v : α) (d : CDeque α) : Res (CDeque α) :=
  let d := { d with size := d.size + 1 }
  if d.size > d.capacity then d.bufInsert d.front v
  else do
    let i ← modC (d.front + d.capacity - 1) d.capacity
    let d := { d with front := i }
    d.bufSet d.front v

/-- `operator[]`, /repo/flut/circular_deque.hpp:27-28. -/
def get (d : CDeque α) (idx : Nat) : Res α := do
  let i ← modC (d.front + idx) d.buffer.length
  d.bufGet i

/-- `pop_back`, /repo/flut/circular_deque.hpp:30. -/
def popBack (d : CDeque α) : Res (CDeque α) :=
  if d.size > 0 then .ok { d with size := d.size - 1 } else .throws .assertion

/-- `pop_front`, /repo/flut/circular_deque.hpp:31. -/
def popFront (d : CDeque α) : Res (CDeque α) :=
  if d.size > 0 then do
    let i ← modC (d.front + 1) d.capacity
    .ok { d with front := i, size := d.size - 1 }
  else .throws .assertion

/-- The non-const `back`, /repo/flut/circular_deque.hpp:33. -/
def back (d : CDeque α) : Res α :=
  if d.size > 0 then do
    let i ← modC (d.front + d.size - 1) d.capacity
    d.bufGet i
  else .throws .assertion

/-- The const `back`, /repo/flut/circular_deque.hpp:34. -/
def constBack (d : CDeque α) : Res α :=
  if d.size > 0 then do
    let i ← modC (d.front + d.size) d.capacity
    d.bufGet i
  else .throws .assertion

/-- `front`, /repo/flut/circular_deque.hpp:36-37. -/
def frontElem (d : CDeque α) : Res α :=
  if d.size > 0 then d.bufGet d.front else .throws .assertion

/-- `clear`, /repo/flut/circular_deque.hpp:43. -/
def clear (d : CDeque α) : CDeque α := { d with front := 0, size := 0 }

/-- `reserve`, /repo/flut/circular_deque.hpp:45: `buffer_.resize( s )`. -/
def reserve (dflt : α) (s : Nat) (d : CDeque α) : CDeque α :=
  { d with buffer := d.buffer.take s ++ List.replicate (s - d.buffer.length) dflt }

/-- Iterating from `begin()` to `end()`, /repo/flut/circular_deque.hpp:48-71, with `n` steps to go from index `i`. -/
def iterFrom (d : CDeque α) : Nat → Nat → Res (List α)
  | 0, _ => .ok []
  | n + 1, i => do
    let j ← modC i d.buffer.length
    let v ← d.bufGet j
    let r ← iterFrom d n (i + 1)
    .ok (v :: r)

/-- The elements visited by a range-based `for` loop. -/
def iterate (d : CDeque α) : Res (List α) := d.iterFrom d.size d.front

/-- Operations that change a `circular_deque`. -/
inductive Op (α : Type) where
  | pushBack (v : α)
  | pushFront (v : α)
  | popBack
  | popFront
  | clear

/-- One operation. -/
def run : Op α → CDeque α → Res (CDeque α)
  | .pushBack v, d => d.pushBack v
  | .pushFront v, d => d.pushFront v
  | .popBack, d => d.popBack
  | .popFront, d => d.popFront
  | .clear, d => .ok d.clear

/-- A history of operations. -/
def runAll : List (Op α) → CDeque α → Res (CDeque α)
  | [], d => .ok d
  | op :: ops, d => do
    let d ← run op d
    runAll ops d

end CDeque

/-! ### `memoize` -/

namespace Memoize

variable {A R : Type} [DecidableEq A]

/-- State of a `memoize<R(Args...)>`, /repo/flut/memoize.hpp:28-29: the map, and (for observation only) the list of
arguments with which the function was called. The argument tuple is one value; `std::map` is an association list, whose
lookup compares for equality. -/
structure State (A R : Type) where
  mem : List (A × R)
  calls : List A

/-- `mem_.find( tup )`. -/
def lookup (a : A) : List (A × R) → Option R
  | [] => none
  | (k, r) :: m => if k = a then some r else lookup a m

/-- `operator()`, /repo/flut/memoize.hpp:15-25, for a function without side effects on the map. -/
def call (f : A → R) (a : A) (s : State A R) : R × State A R :=
  match lookup a s.mem with
  | none => (f a, ⟨(a, f a) :: s.mem, s.calls ++ [a]⟩)
  | some r => (r, s)

/-- A sequence of calls: the results and the final state. -/
def callAll (f : A → R) : List A → State A R → List R × State A R
  | [], s => ([], s)
  | a :: as, s =>
    let (r, s) := call f a s
    let (rs, s) := callAll f as s
    (r :: rs, s)

end Memoize

/-! ### `dictionary` -/

namespace Dictionary

variable {T : Type} [DecidableEq T]

/-- `operator()( const T& )`, /repo/flut/dictionary.hpp:18-22. -/
def name (e : T) : List (T × Str) → Res Str
  | [] => .throws .flutError
  | (t, s) :: r => if e = t then .ok s else name e r

/-- `operator()( const string& )`, /repo/flut/dictionary.hpp:25-29. -/
def elem (str : Str) : List (T × Str) → Res T
  | [] => .throws .flutError
  | (t, s) :: r => if str = s then .ok t else elem str r

/-- `operator()( const string&, const T& )`, /repo/flut/dictionary.hpp:32-35. -/
def elemOr (str : Str) (dflt : T) : List (T × Str) → T
  | [] => dflt
  | (t, s) :: r => if str = s then t else elemOr str dflt r

/-- `lookup`, /repo/flut/dictionary.hpp:45-52. -/
def lookup (value : Str) : List (Str × T) → Res T
  | [] => .throws .flutError
  | (s, t) :: r => if value = s then .ok t else lookup value r

end Dictionary

/-! ### `flag_set` -/

/-- `flag_set`, /repo/flut/flag_set.hpp:10-38, with a storage type of `w` bits (32 by default; not narrower than
`int`, since narrower types are promoted). -/
abbrev FlagSet (w : Nat) := BitVec w

namespace FlagSet

variable {w : Nat}

/-- `storage_bit`, /repo/flut/flag_set.hpp:36-37. A shift by a negative count or by the width or more is undefined. -/
def bit (i : Int) (value : Bool) : Res (FlagSet w) :=
  if 0 ≤ i ∧ i < w then .ok ((if value then 1#w else 0#w) <<< i.toNat) else .ub

/-- `get`, /repo/flut/flag_set.hpp:18-20. -/
def get (i : Int) (d : FlagSet w) : Res Bool := do
  let b ← bit i true
  .ok (d &&& b != 0#w)

/-- `set( index, value )`, /repo/flut/flag_set.hpp:22-23. -/
def set (i : Int) (value : Bool) (d : FlagSet w) : Res (FlagSet w) := do
  let b ← bit i true
  let v ← bit i value
  .ok ((d &&& ~~~b) ||| v)

/-- `set( index )`, /repo/flut/flag_set.hpp:25-26. -/
def setOn (i : Int) (d : FlagSet w) : Res (FlagSet w) := do
  let b ← bit i true
  .ok (d ||| b)

/-- `clear<index>()`, /repo/flut/flag_set.hpp:27. -/
def clearFlag (i : Int) (d : FlagSet w) : Res (FlagSet w) := do
  let b ← bit i true
  .ok (d &&& ~~~b)

/-- `set( list )`, /repo/flut/flag_set.hpp:29, also the constructor from a list (line 14) on `0`. -/
def setList : List Int → FlagSet w → Res (FlagSet w)
  | [], d => .ok d
  | i :: is, d => do
    let d ← setOn i d
    setList is d

/-- `clear()`, /repo/flut/flag_set.hpp:32. -/
def clear : FlagSet w := 0#w

/-- `any`, /repo/flut/flag_set.hpp:33. -/
def any (d : FlagSet w) : Bool := d != 0#w

end FlagSet

end Flut
