import Verif.Model.Containers
import Verif.Model.Path

/-!
# Names of types, and registering a class under the name of its type

`clean_type_name` of `flut/system_tools.cpp`, as built with GCC or Clang, and the default argument of `register_class` in `flut/factory.hpp`.
-/

namespace Flut

/-- `clean_type_name( const char* )` (flut/system_tools.cpp:66-78). `abi::__cxa_demangle` is a parameter; where it returns a null pointer a
`std::string` is made of it, which is undefined. -/
def cleanTypeName (demangle : Str → Option Str) (name : Str) : Res Str :=
  match demangle name with
  | none => .ub
  | some str =>
    match findLast (fun c => c == 58 || c == 32) str with
    | some pos => substr str (pos + 1) none
    | none => .ok str

namespace Factory

variable {A T : Type}

/-- `register_class< U >()` (flut/factory.hpp:23-24) for the class `U` whose `typeid( U ).name()` is `raw` (flut/system_tools.hpp:15). -/
def registerClass (demangle : Str → Option Str) (raw : Str) (creator : A → T) (m : FlatMap Str (A → T)) : Res (FlatMap Str (A → T)) := do
  let name ← cleanTypeName demangle raw
  .ok (register name creator m)

/-- Such registrations one after the other. -/
def registerClasses (demangle : Str → Option Str) : List (Str × (A → T)) → FlatMap Str (A → T) → Res (FlatMap Str (A → T))
  | [], m => .ok m
  | (raw, creator) :: rs, m => do
    let m ← registerClass demangle raw creator m
    registerClasses demangle rs m

end Factory

end Flut
