import Verif.Model.Xml

/-!
# Programs that save and load property trees

flut/prop_node_tools.cpp has three formats. A program has trees in variables and files on disk; each call saves one of the trees or loads another one.
-/

namespace Flut

/-- The formats that a tree can be saved in. -/
inductive TreeFormat where
  | prop
  | xml
  | ini
deriving DecidableEq

/-- A call of one of the functions that save and load trees. -/
inductive FileAct where
  /-- `save_prop( v, p )`, `save_xml( v, p )` or `save_ini( v, p )` -/
  | save (f : TreeFormat) (v : Nat) (p : Str)
  /-- `auto w = load_prop( p )`, `load_xml( p )` or `load_ini( p )` -/
  | load (f : TreeFormat) (p : Str)
  /-- `auto w = load_file( p )` -/
  | loadFile (p : Str)

/-- The files and the variables. -/
structure FileProgram where
  fs : Fs
  vars : List PN

namespace FileProgram

/-- Saving in a format (flut/prop_node_tools.cpp:92-98, 198-212 and 233-243); the result of `save_prop` is not looked at. -/
def save (f : TreeFormat) (n : PN) (p : Str) (fs : Fs) : Fs :=
  match f with
  | .prop => (fs.saveProp n p true).2
  | .xml => fs.saveXml n p
  | .ini => fs.saveIniFile n p

/-- Loading from a format (flut/prop_node_tools.cpp:65-90, 157-163 and 165-170), without an error code. -/
def load (f : TreeFormat) (p : Str) (fs : Fs) : Res PN :=
  match f with
  | .prop => (fs.loadProp p none).1
  | .xml => (fs.loadXml p none).1
  | .ini => fs.loadIniFile p

/-- One call. A variable that does not exist cannot be used. -/
def step (s : FileProgram) : FileAct → Res FileProgram
  | .save f v p => match s.vars[v]? with
    | none => .ub
    | some n => .ok ⟨save f n p s.fs, s.vars⟩
  | .load f p => do
    let n ← load f p s.fs
    .ok ⟨s.fs, s.vars ++ [n]⟩
  /- flut/prop_node_tools.cpp:27-32 -/
  | .loadFile p => do
    let n ← s.fs.loadFile p
    .ok ⟨s.fs, s.vars ++ [n]⟩

/-- A sequence of calls. -/
def run : List FileAct → FileProgram → Res FileProgram
  | [], s => .ok s
  | a :: as, s => do
    let s ← s.step a
    run as s

end FileProgram

end Flut
