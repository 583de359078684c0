import Verif.Model.Threads
import Verif.Model.Containers
import Verif.Model.Random

/-!
# Function memories, generators, factories and dictionaries that are used by several threads

`flut/memoize.hpp`, `flut/math/random.hpp`, `flut/factory.hpp`, `flut/dictionary.hpp`. None of them has a lock. Each object is one place in memory. The functions
that are memoized and the creators of a factory do not use these objects themselves.
-/

namespace Flut.Threads

/-- Objects, with a number each. The generator of `rand_uni` (flut/math/random.hpp:22,30-34) is one of them. -/
inductive ObjPlace where
  | memo (n : Nat)
  | generator (n : Nat)
  | factory (n : Nat)
  | dictionary (n : Nat)
deriving DecidableEq

/-- What is stored there. An object uses only the member that belongs to its kind: `mem_` (flut/memoize.hpp:28), `engine` (flut/math/random.hpp:26), `func_map_`
(flut/factory.hpp:44) or `data` (flut/dictionary.hpp:38). -/
structure ObjCell (A R : Type) where
  memo : List (A × R) := []
  generator : Nat := 1
  factory : FlatMap Str (A → R) := []
  dictionary : List (R × Str) := []

/-- Calls of members of the objects. -/
inductive ObjCall (A R : Type) where
  | memo (n : Nat) (a : A)
  | uni (n : Nat) (f : Fmt) (min max : Flt)
  | seed (n : Nat) (s : Nat)
  | register (n : Nat) (name : Str) (creator : A → R)
  | create (n : Nat) (name : Str) (args : A)
  | hasType (n : Nat) (name : Str)
  | nameOf (n : Nat) (e : R)
  | element (n : Nat) (name : Str)

/-- What calls return. -/
inductive ObjAns (R : Type) where
  | nothing
  | result (r : Res R)
  | number (x : Flt)
  | bool (b : Bool)
  | text (s : Res Str)

variable {A R : Type} [DecidableEq A] [DecidableEq R]

/-- `mem_[ tup ] = r` (flut/memoize.hpp:20). -/
def memoSet (a : A) (r : R) : List (A × R) → List (A × R)
  | m => if (Memoize.lookup a m).isSome then m.map fun x => if x.1 = a then (a, r) else x else (a, r) :: m

/-- The accesses of a call; `f` are the functions that are memoized. -/
def ObjCall.run (f : Nat → A → R) : ObjCall A R → Prog ObjPlace (ObjCell A R) (ObjAns R)
  -- flut/memoize.hpp:15-25
  | .memo n a => .read (.memo n) fun c =>
    match Memoize.lookup a c.memo with
    | none => .modify false (.memo n) (fun c => { c with memo := memoSet a (f n a) c.memo }) (.ret (.result (.ok (f n a))))
    | some r => .ret (.result (.ok r))
  -- flut/math/random.hpp:20
  | .uni n g min max => .read (.generator n) fun c =>
    .write (.generator n) { c with generator := (Random.uni g min max c.generator).2 } (.ret (.number (Random.uni g min max c.generator).1))
  -- flut/math/random.hpp:19
  | .seed n s => .modify false (.generator n) (fun c => { c with generator := Random.seed s }) (.ret .nothing)
  -- flut/factory.hpp:23-24
  | .register n name creator =>
    .modify false (.factory n) (fun c => { c with factory := Factory.register name creator c.factory }) (.ret .nothing)
  -- flut/factory.hpp:27-31
  | .create n name args => .read (.factory n) fun c => .ret (.result (Factory.create name args c.factory))
  -- flut/factory.hpp:41
  | .hasType n name => .read (.factory n) fun c => .ret (.bool (Factory.hasType name c.factory))
  -- flut/dictionary.hpp:18-22
  | .nameOf n e => .read (.dictionary n) fun c => .ret (.text (Dictionary.name e c.dictionary))
  -- flut/dictionary.hpp:25-29
  | .element n name => .read (.dictionary n) fun c => .ret (.result (Dictionary.elem name c.dictionary))

/-- The part of a program that runs in a thread: it decides by the answers so far what to call next. -/
inductive ObjClient (A R : Type) where
  | done
  | call (c : ObjCall A R) (next : ObjAns R → ObjClient A R)

/-- The accesses of a thread; its result are the answers that it got. -/
def ObjClient.prog (f : Nat → A → R) : ObjClient A R → Prog ObjPlace (ObjCell A R) (List (ObjAns R))
  | .done => .ret []
  | .call c next => (c.run f).bind fun a => ((next a).prog f).bind fun as => .ret (a :: as)

/-- A thread that makes calls whatever the answers are. -/
def ObjClient.ofList : List (ObjCall A R) → ObjClient A R
  | [] => .done
  | c :: cs => .call c fun _ => .ofList cs

end Flut.Threads
