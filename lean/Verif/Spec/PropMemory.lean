import Verif.Model.PropMemory
import Verif.Spec.PropNode

/-! # Access flags of a tree

The trees of the model are used, but none of its functions. -/

namespace Flut.Spec

/-- The node at a path of positions. -/
def at? : List Nat → VN → Option VN
  | [], n => some n
  | i :: p, .mk _ _ _ cs => match cs[i]? with
    | none => none
    | some kn => at? p kn.2

/-- The access flag of the node at a path of positions. -/
def flagAt (p : List Nat) (t : VN) : Option Bool := match at? p t with
  | none => none
  | some (.mk a _ _ _) => some a

/-- The number of children, and how many fit without new memory. -/
def count : VN → Nat | .mk _ _ _ cs => cs.length
def room : VN → Nat | .mk _ _ c _ => c

/-- The keys of the children. -/
def keysOf : VN → List Str | .mk _ _ _ cs => cs.map Prod.fst

/-- What a program does with a node: read a child, add a child, or ask for one that is added if it is missing. -/
inductive Use
  | read (key : Str)
  | add (key : Str) (n : VN)
  | need (key : Str)

end Flut.Spec
