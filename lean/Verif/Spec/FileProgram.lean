import Verif.Model.FileProgram
import Verif.Spec.PropText
import Verif.Spec.Xml
import Verif.Spec.Ini

/-!
# What saving and loading should do

Files and variables hold trees, which are known by their numbers: saving puts the number of a tree into a file, with the format, and loading it with the same format
gets it back.
-/

namespace Flut.Spec

open Flut

/-- The trees that a format can hold. -/
def FitsFormat : TreeFormat → PN → Prop
  | .prop, n => n.value = [] ∧ (∀ kn ∈ n.children, PrintableKey kn.1) ∧ ∀ kn ∈ n.children, PrintableTree kn.2
  | .xml, n => n.value = [] ∧ ∃ k x, n.children = [(k, x)] ∧ Xml.Name k ∧ Xml.Storable x
  | .ini, n => ∃ main groups, IniDoc n main groups

/-- A name that a file can be written to and read from: its folder exists, it is not that of a folder, and the user has the rights. -/
def Usable (fs : Fs) (p : Str) : Prop :=
  ∃ l, fs.locate (cstr p) = some l ∧ (cstr p).getLast? ≠ some 47 ∧ fs.node l ≠ some .folder ∧ fs.writable l = true ∧ fs.readable l = true

/-- The variables, and the files that were written. -/
structure Shelf where
  vars : List Nat
  files : Loc → Option (TreeFormat × Nat)

namespace Shelf

/-- What was saved at a location, if it was in the given format. -/
def take (f : TreeFormat) (l : Option Loc) (s : Shelf) : Option Nat :=
  match l with
  | none => none
  | some l => match s.files l with
    | some (f', k) => if f' = f then some k else none
    | none => none

/-- One call. Different names can be those of one location. `load_file` takes names that end in `.xml` for XML and all others for prop. -/
def step (loc : Str → Option Loc) (s : Shelf) : FileAct → Option Shelf
  | .save f v p => match s.vars[v]?, loc p with
    | some k, some l => some ⟨s.vars, fun m => if m = l then some (f, k) else s.files m⟩
    | _, _ => none
  | .load f p => (s.take f (loc p)).map fun k => ⟨s.vars ++ [k], s.files⟩
  | .loadFile p => (s.take (if b!".xml" <:+ p then .xml else .prop) (loc p)).map fun k => ⟨s.vars ++ [k], s.files⟩

/-- A sequence of calls. -/
def run (loc : Str → Option Loc) : List FileAct → Shelf → Option Shelf
  | [], s => some s
  | a :: as, s => (s.step loc a).bind (run loc as)

/-- The formats and trees that are saved. -/
def saved (loc : Str → Option Loc) : List FileAct → Shelf → List (TreeFormat × Nat)
  | [], _ => []
  | a :: as, s =>
    (match a with
      | .save f v _ => (s.vars[v]?.map fun k => (f, k)).toList
      | _ => []) ++
    match s.step loc a with
    | none => []
    | some s => saved loc as s

end Shelf

/-- The name that a call uses. -/
def nameOf : FileAct → Str
  | .save _ _ p | .load _ p | .loadFile p => p

/-- A chain of conversions: variable `v` is saved and loaded, what was loaded is saved and loaded, and so on. -/
def conversions (v : Nat) : List (TreeFormat × Str) → List FileAct
  | [] => []
  | (f, p) :: r => .save f v p :: .load f p :: conversions (v + 1) r

end Flut.Spec
