import Verif.Model.Path
import Verif.Model.Text
import Verif.Model.PropText
import Verif.Model.Ini

/-!
# `flut/filesystem.cpp` and the functions that load and save property files

The operating system is modelled as a tree of folders and files with fixed permissions, without links and without other
processes; calls do not fail for lack of memory or disk space. The branches for systems other than Windows are modelled.
`exists` (flut/filesystem.cpp:79-87) does not compile there and is left out; the functions that ask for special folders are in `Model/CurrentFolder.lean`.
-/

namespace Flut

/-! ## The operating system -/

/-- What a location of the file system holds. -/
inductive FsNode where
  | file (content : Str)
  | folder
deriving DecidableEq

/-- A location: the names from the root down. -/
abbrev Loc := List Str

/-- The file system, with the working directory and what the user may read and write. -/
structure Fs where
  node : Loc → Option FsNode
  cwd : Loc
  readable : Loc → Bool
  writable : Loc → Bool

namespace Fs

/-- Change one location. -/
def put (fs : Fs) (l : Loc) (n : FsNode) : Fs := { fs with node := fun m => if m = l then some n else fs.node m }

/-- The parts of a text between slashes. -/
def splitSlash : Str → List Str
  | [] => [[]]
  | c :: s =>
    match splitSlash s with
    | [] => [[]]
    | w :: ws => if c = 47 then [] :: w :: ws else (c :: w) :: ws

/-- One step of path resolution: only folders can be entered. -/
def step (fs : Fs) (l : Loc) (name : Str) : Option Loc :=
  if fs.node l = some .folder then
    if name = b!"." then some l else if name = b!".." then some l.dropLast else some (l ++ [name])
  else none

/-- Path resolution over several names. -/
def walk (fs : Fs) (l : Loc) : List Str → Option Loc
  | [] => some l
  | n :: ns => (fs.step l n).bind fun l => walk fs l ns

/-- Path resolution: the location a name stands for, which need not exist. The empty name stands for nothing. -/
def locate (fs : Fs) (p : Str) : Option Loc :=
  if p = [] then none
  else fs.walk (if p.head? = some 47 then [] else fs.cwd) ((splitSlash p).filter (· ≠ []))

/-- `stat`: what a name stands for. A name that ends in a slash stands for folders only. -/
def stat (fs : Fs) (p : Str) : Option FsNode :=
  match fs.locate (cstr p) with
  | none => none
  | some l => if (cstr p).getLast? = some 47 ∧ fs.node l ≠ some .folder then none else fs.node l

/-- `mkdir`. -/
def mkdir (fs : Fs) (p : Str) : Bool × Fs :=
  match fs.locate (cstr p) with
  | none => (false, fs)
  | some l => if fs.node l = none ∧ fs.writable l = true then (true, fs.put l .folder) else (false, fs)

/-- Opening a `std::ifstream`; folders can be opened as well, but not read from. -/
def openRead (fs : Fs) (p : Str) : Option Loc :=
  match fs.locate (cstr p) with
  | none => none
  | some l => if (fs.stat p).isSome ∧ fs.readable l = true then some l else none

/-- What reading an open stream to its end gives. -/
def readAll (fs : Fs) (l : Loc) : Str :=
  match fs.node l with
  | some (.file content) => content
  | _ => []

/-- Opening a `std::ofstream`: creates the file or empties it. -/
def openWrite (fs : Fs) (p : Str) : Option (Loc × Fs) :=
  match fs.locate (cstr p) with
  | none => none
  | some l =>
    if (cstr p).getLast? = some 47 ∨ fs.node l = some .folder ∨ fs.writable l = false then none
    else some (l, fs.put l (.file []))

/-! ## `flut/filesystem.cpp` -/

/-- `file_exists` (flut/filesystem.cpp:89-93). -/
def fileExists (fs : Fs) (p : Str) : Bool := (fs.openRead p).isSome

/-- `folder_exists` (flut/filesystem.cpp:95-109). -/
def folderExists (fs : Fs) (p : Str) : Bool := fs.stat p = some .folder

/-- `copy_file` (flut/filesystem.cpp:60-77). The destination is opened, and so emptied, before the streams are tested; what is
copied is what the source holds then. -/
def copyFile (fs : Fs) (src dst : Str) (overwrite : Bool) : Bool × Fs :=
  if overwrite || !fs.fileExists dst then
    let s := fs.openRead src
    match fs.openWrite dst with
    | none => (false, fs)
    | some (d, fs) =>
      match s with
      | none => (false, fs)
      | some l => (true, fs.put d (.file (fs.readAll l)))
  else (false, fs)

/-- `create_directories` (flut/filesystem.cpp:111-122); each call is on a shorter path. `parent_path` always returns
(`C10_decompose`, `C10_no_separator`). -/
def createDirsN : Nat → Fs → Str → Bool × Fs
  | 0, fs, _ => (false, fs)
  | n + 1, fs, p =>
    let fs := if hasParentPath p then
        match parentPath p with
        | .ok q => if fs.folderExists q then fs else (createDirsN n fs q).2
        | _ => fs
      else fs
    fs.mkdir p

/-- `create_directories` (flut/filesystem.cpp:111-122). -/
def createDirectories (fs : Fs) (p : Str) : Bool × Fs := createDirsN (p.length + 1) fs p

/-- The name tried in round `i` (flut/filesystem.cpp:126,130-131). -/
def uniqueName (folder : Str) (i : Nat) : Str := if i > 0 then folder ++ b!" (" ++ natStr i ++ b!")" else folder

/-- The loop of `create_unique_folder` (flut/filesystem.cpp:128-136); the first argument is the number of rounds left. -/
def uniqueLoop (folder : Str) : Nat → Nat → Fs → Res Str × Fs
  | 0, _, fs => (.throws .flutError, fs)
  | n + 1, i, fs =>
    if fs.folderExists (uniqueName folder i) then uniqueLoop folder n (i + 1) fs
    else
      match fs.createDirectories (uniqueName folder i) with
      | (true, fs) => (.ok (uniqueName folder i), fs)
      | (false, fs) => uniqueLoop folder n (i + 1) fs

/-- `create_unique_folder` (flut/filesystem.cpp:124-139). -/
def createUniqueFolder (fs : Fs) (folder : Str) (maxAttempts : Int) : Res Str × Fs :=
  uniqueLoop folder maxAttempts.toNat 0 fs

/-- `error_code` (flut/system/error_code.hpp:7-19): the code and the message. -/
structure ErrorCode where
  code : Int := 0
  message : Str := []
deriving DecidableEq

/-- `load_string` (flut/filesystem.cpp:141-154), with `try_set_error` (flut/system/error_code.hpp:23). The error code argument
is optional; its new value is returned. -/
def loadString (fs : Fs) (p : Str) (ec : Option ErrorCode) : Res Str × Option ErrorCode :=
  match fs.openRead p with
  | none =>
    match ec with
    | some _ => (.ok [], some ⟨-1, b!"Could not open " ++ p⟩)
    | none => (.throws .flutError, none)
  | some l => (.ok (fs.readAll l), ec)

/-- `load_prop` (flut/prop_node_tools.cpp:157-163). -/
def loadProp (fs : Fs) (p : Str) (ec : Option ErrorCode) : Res PN × Option ErrorCode :=
  match fs.loadString p ec with
  | (.ok text, ec) => if ec.any (fun e => e.code ≠ 0) then (.ok PN.nil, ec) else (parseProp text, ec)
  | (.throws e, ec) => (.throws e, ec)
  | (.ub, ec) => (.ub, ec)
  | (.diverges, ec) => (.diverges, ec)

/-- `save_prop` (flut/prop_node_tools.cpp:233-243). -/
def saveProp (fs : Fs) (n : PN) (p : Str) (readable : Bool) : Bool × Fs :=
  match fs.openWrite p with
  | none => (false, fs)
  | some (l, fs) => (true, fs.put l (.file (savedProp readable n)))

/-- `load_ini` on a file (flut/prop_node_tools.cpp:165-170, flut/char_stream.cpp:101-104): no error code is passed. -/
def loadIniFile (fs : Fs) (p : Str) : Res PN := do
  let text ← (fs.loadString p none).1
  loadIni text

/-- `save_ini` on a file (flut/prop_node_tools.cpp:198-212): writing to a stream that did not open is ignored. -/
def saveIniFile (fs : Fs) (n : PN) (p : Str) : Fs :=
  match fs.openWrite p with
  | none => fs
  | some (l, fs) => fs.put l (.file (saveIni n))

end Fs

end Flut
