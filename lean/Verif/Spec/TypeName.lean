import Verif.Basic

/-! # Specification: the names of classes -/

namespace Flut.Spec

/-- The name of a class within the namespaces `ns`, as it is written in C++: `a::b::id`. -/
def qualified (ns : List Str) (id : Str) : Str := (ns.map fun n => n ++ b!"::").flatten ++ id

/-- There is neither a colon nor a space in the name. -/
def Unqualified (id : Str) : Prop := ∀ c ∈ id, c ≠ c!":" ∧ c ≠ c!" "

/-- A class: how the compiler names it, the namespaces it is in, its own name and how objects are made. -/
structure Class (A T : Type) where
  raw : Str
  ns : List Str
  id : Str
  make : A → T

end Flut.Spec
