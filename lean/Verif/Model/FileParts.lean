import Verif.Model.FileSystem
import Verif.Model.Xml

/-!
# One file that is saved and loaded by several programs at the same time

`save_prop`, `save_xml` and `save_ini` open a file, which empties it, and write their text in parts; `load_string`, with which all functions that load
begin, reads a file in parts. Nothing in flut keeps the parts of different programs apart.
-/

namespace Flut

/-- A call of a function that saves: the text it writes, and how much of it is written, if the file is open. -/
structure FileSaver where
  text : Str
  pos : Option Nat

/-- A call of `load_string`: it has not begun, has read some text, or has ended with this text, or because the file could not be opened. -/
inductive FileLoader where
  | idle
  | reading (got : Str)
  | done (got : Option Str)

/-- What a file holds, if it exists, and the calls that use it. -/
structure SharedFile where
  content : Option Str
  savers : List FileSaver
  loaders : List FileLoader

/-- What a call does next: one call of the operating system. How many characters are written or read at once is up to the stream. -/
inductive PartAct where
  | openSave (i : Nat)
  | write (i n : Nat)
  | openLoad (j : Nat)
  | read (j n : Nat)

/-- What a file holds after writing `part` at a position. If the file is shorter than that, characters with code 0 come in between. -/
def writeAt (content : Str) (pos : Nat) (part : Str) : Str :=
  (content ++ List.replicate (pos - content.length) 0).take pos ++ part ++ content.drop (pos + part.length)

namespace SharedFile

/-- The calls before they begin. -/
def start (old : Option Str) (texts : List Str) (loaders : Nat) : SharedFile :=
  ⟨old, texts.map fun t => ⟨t, none⟩, List.replicate loaders .idle⟩

/-- One step, if it is possible.

* `openSave`: the constructor of `std::ofstream` (flut/prop_node_tools.cpp:96, :200, :235) creates or empties the file.
* `write`: the stream passes on the next characters of the text, behind what it has written before (flut/prop_node_tools.cpp:97, :201-211, :238-239).
* `openLoad`: the constructor of `std::ifstream` (flut/filesystem.cpp:144-150).
* `read`: the stream reads behind what it has read before, until there is nothing more (flut/filesystem.cpp:151-153).

Simplified: opening fails only if the file does not exist, and no other call fails. -/
def act (s : SharedFile) : PartAct → Option SharedFile
  | .openSave i =>
    match s.savers[i]? with
    | some ⟨t, none⟩ => some ⟨some [], s.savers.set i ⟨t, some 0⟩, s.loaders⟩
    | _ => none
  | .write i n =>
    match s.savers[i]?, s.content with
    | some ⟨t, some p⟩, some c =>
      if 0 < n ∧ p + n ≤ t.length then some ⟨some (writeAt c p ((t.drop p).take n)), s.savers.set i ⟨t, some (p + n)⟩, s.loaders⟩
      else none
    | _, _ => none
  | .openLoad j =>
    match s.loaders[j]? with
    | some .idle => some ⟨s.content, s.savers, s.loaders.set j (if s.content.isSome then .reading [] else .done none)⟩
    | _ => none
  | .read j n =>
    match s.loaders[j]?, s.content with
    | some (.reading g), some c =>
      if 0 < n then
        some ⟨s.content, s.savers, s.loaders.set j
          (if (c.drop g.length).take n = [] then .done (some g) else .reading (g ++ (c.drop g.length).take n))⟩
      else none
    | _, _ => none

/-- Several steps. -/
def run (s : SharedFile) : List PartAct → Option SharedFile
  | [] => some s
  | a :: as =>
    match s.act a with
    | none => none
    | some s => s.run as

end SharedFile

/-- Whether a call that saves has written everything. -/
def FileSaver.finished (s : FileSaver) : Prop := s.pos = some s.text.length

end Flut
