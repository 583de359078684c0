import Verif.Model.ObjectThreads
import Verif.Spec.LogThreads

/-! # Specification of objects that are used by several threads -/

namespace Flut.Threads

variable {A R : Type} [DecidableEq A] [DecidableEq R]

/-- The object that is called. -/
def ObjCall.place : ObjCall A R → ObjPlace
  | .memo n _ => .memo n
  | .uni n _ _ _ | .seed n _ => .generator n
  | .register n _ _ | .create n _ _ | .hasType n _ => .factory n
  | .nameOf n _ | .element n _ => .dictionary n

/-- The call only looks at an object that is as given: creating objects, asking for types, looking up names and elements, and a memoized function for arguments
that it was called with before. Drawing a number is more than looking. -/
def ObjCall.Looks (c : ObjCell A R) : ObjCall A R → Prop
  | .memo _ a => ∃ r, (a, r) ∈ c.memo
  | .uni _ _ _ _ | .seed _ _ | .register _ _ _ => False
  | .create _ _ _ | .hasType _ _ | .nameOf _ _ | .element _ _ => True

/-- The memory with another object. -/
def putObj (m : ObjPlace → ObjCell A R) (p : ObjPlace) (c : ObjCell A R) : ObjPlace → ObjCell A R := fun q => if q = p then c else m q

/-- What a call does when there are no other threads, by the models without threads: its answer and the memory afterwards. -/
def ObjCall.sequential (f : Nat → A → R) (m : ObjPlace → ObjCell A R) : ObjCall A R → ObjAns R × (ObjPlace → ObjCell A R)
  | .memo n a =>
    let r := Memoize.call (f n) a ⟨(m (.memo n)).memo, []⟩
    (.result (.ok r.1), putObj m (.memo n) { m (.memo n) with memo := r.2.mem })
  | .uni n g min max =>
    let r := Random.uni g min max (m (.generator n)).generator
    (.number r.1, putObj m (.generator n) { m (.generator n) with generator := r.2 })
  | .seed n s => (.nothing, putObj m (.generator n) { m (.generator n) with generator := Random.seed s })
  | .register n name creator =>
    (.nothing, putObj m (.factory n) { m (.factory n) with factory := Factory.register name creator (m (.factory n)).factory })
  | .create n name args => (.result (Factory.create name args (m (.factory n)).factory), m)
  | .hasType n name => (.bool (Factory.hasType name (m (.factory n)).factory), m)
  | .nameOf n e => (.text (Dictionary.name e (m (.dictionary n)).dictionary), m)
  | .element n name => (.result (Dictionary.elem name (m (.dictionary n)).dictionary), m)

/-- What a thread is told when there are no other threads, and the memory afterwards. -/
def ObjClient.sequential (f : Nat → A → R) : ObjClient A R → (ObjPlace → ObjCell A R) → List (ObjAns R) × (ObjPlace → ObjCell A R)
  | .done, m => ([], m)
  | .call c next, m =>
    let r := c.sequential f m
    let rest := (next r.1).sequential f r.2
    (r.1 :: rest.1, rest.2)

/-- Thread `i` calls only objects of its own, and only looks at objects that belong to nobody. -/
def ObjClient.Keeps (owner : ObjPlace → Option Nat) (m : ObjPlace → ObjCell A R) (i : Nat) : ObjClient A R → Prop
  | .done => True
  | .call c next => (owner c.place = some i ∨ (owner c.place = none ∧ c.Looks (m c.place))) ∧ ∀ a, (next a).Keeps owner m i

/-- Whatever it is told, the thread makes a call with this property some time. -/
def ObjClient.Makes (P : ObjCall A R → Prop) : ObjClient A R → Prop
  | .done => False
  | .call c next => P c ∨ ∀ a, (next a).Makes P

/-- What is remembered are values of the functions. -/
def MemoSound (f : Nat → A → R) (m : ObjPlace → ObjCell A R) : Prop := ∀ n x, x ∈ (m (.memo n)).memo → x.2 = f n x.1

/-- The thread was told the values of the memoized functions. -/
def ObjClient.ToldValues (f : Nat → A → R) : ObjClient A R → List (ObjAns R) → Prop
  | .done, as => as = []
  | .call (.memo n a) next, as => ∃ rest, as = .result (.ok (f n a)) :: rest ∧ (next (.result (.ok (f n a)))).ToldValues f rest
  | .call _ next, as => ∃ x rest, as = x :: rest ∧ (next x).ToldValues f rest

/-- The arguments with which a call makes `memoize` call its function. -/
def ObjCall.evaluates (f : Nat → A → R) (m : ObjPlace → ObjCell A R) : ObjCall A R → List (Nat × A)
  | .memo n a => (Memoize.call (f n) a ⟨(m (.memo n)).memo, []⟩).2.calls.map fun a => (n, a)
  | _ => []

/-- Threads that take the same lock for every call, so that calls happen one after another: the memory, what the threads still have to do, the calls so far with
their threads and answers, and the arguments with which functions were called. -/
structure Locked (A R : Type) where
  mem : ObjPlace → ObjCell A R
  threads : List (ObjClient A R)
  done : List (Nat × ObjCall A R × ObjAns R) := []
  evaluated : List (Nat × A) := []

/-- The next call of a thread. -/
def Locked.step (f : Nat → A → R) (s : Locked A R) (i : Nat) : Locked A R :=
  match s.threads[i]? with
  | some (.call c next) =>
    let r := c.sequential f s.mem
    ⟨r.2, s.threads.set i (next r.1), s.done ++ [(i, c, r.1)], s.evaluated ++ c.evaluates f s.mem⟩
  | _ => s

/-- A schedule says which thread is next. -/
def Locked.run (f : Nat → A → R) (s : Locked A R) (sched : List Nat) : Locked A R := sched.foldl (Locked.step f) s

end Flut.Threads
