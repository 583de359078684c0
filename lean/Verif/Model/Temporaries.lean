import Verif.Model.Containers

/-!
# Text and elements that are handed out without a copy

Strings of a program, each with the number of the last change to it. A pointer that a string gave can be used until the string is changed or
destroyed; a reference to a string until it is destroyed. Numbers of strings are not used again, so that a place that happens to be reused
does not make a pointer usable.
-/

namespace Flut

namespace Lend

/-- The strings that exist. -/
structure Store where
  obj : Nat → Option (Str × Nat) := fun _ => none
  next : Nat := 0

/-- A `const char*` that a string gave. -/
structure Ptr where
  obj : Nat
  version : Nat
deriving DecidableEq

/-- What a program does with strings. -/
inductive Op where
  | create (s : Str)
  | assign (o : Nat) (s : Str)
  | destroy (o : Nat)
deriving DecidableEq

/-- A new string. -/
def Store.create (s : Str) (st : Store) : Nat × Store :=
  (st.next, { obj := fun o => if o = st.next then some (s, 0) else st.obj o, next := st.next + 1 })

/-- The end of a string. -/
def Store.destroy (x : Nat) (st : Store) : Store := { st with obj := fun o => if o = x then none else st.obj o }

/-- One operation. Nothing happens to strings that do not exist. -/
def step (st : Store) : Op → Store
  | .create s => (st.create s).2
  | .assign x s => { st with obj := fun o => if o = x then (st.obj o).map fun p => (s, p.2 + 1) else st.obj o }
  | .destroy x => st.destroy x

/-- A sequence of operations. -/
def steps (st : Store) (ops : List Op) : Store := ops.foldl step st

/-- `from_str< const char* >( s )` (flut/string_tools.hpp:75, flut/system/string_cast.hpp:44-45), `c_str()` of a `path`
(flut/system/path.hpp:33), for a string of the program. -/
def cStr (o : Nat) (st : Store) : Res Ptr :=
  match st.obj o with
  | some p => .ok ⟨o, p.2⟩
  | none => .ub

/-- The text at a pointer, up to the first null character, as in `string_cast< const char* >::to`
(flut/system/string_cast.hpp:46). -/
def text (p : Ptr) (st : Store) : Res Str :=
  match st.obj p.obj with
  | some (s, v) => if v = p.version then .ok (s.takeWhile (· ≠ 0)) else .ub
  | none => .ub

/-- `p = from_str< const char* >( ... )` for a string that the expression makes: it is destroyed at the end of the statement. -/
def cStrOfTemporary (s : Str) (st : Store) : Res Ptr × Store :=
  let (o, st1) := st.create s
  (cStr o st1, st1.destroy o)

/-- The string behind a reference. -/
def value (o : Nat) (st : Store) : Res Str :=
  match st.obj o with
  | some p => .ok p.1
  | none => .ub

/-- `dictionary< string >::operator()( const string&, const T& )` (flut/dictionary.hpp:32-35): a reference to an element, or the
argument. The elements are given by their numbers. -/
def dictOr (name : Str) (dflt : Nat) (data : List (Nat × Str)) : Nat :=
  match data.find? fun p => decide (name = p.2) with
  | some p => p.1
  | none => dflt

/-- `const string& r = dict( name, ... )` with a default that the expression makes. -/
def dictOrTemporary (name : Str) (dflt : Str) (data : List (Nat × Str)) (st : Store) : Nat × Store :=
  let (o, st1) := st.create dflt
  (dictOr name o data, st1.destroy o)

end Lend

end Flut
