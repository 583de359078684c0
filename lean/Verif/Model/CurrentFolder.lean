import Verif.Model.FileSystem
import Verif.Model.Include

/-!
# The current folder and the folders of the user

`current_path` in both forms and the functions that ask for special folders, /repo/flut/filesystem.cpp. `get_config_folder` (lines 30-38) does not compile outside Windows: it
returns a `string` where the constructor of `path` from one is `explicit`.
-/

namespace Flut.Fs

/-- `chdir`: only folders can be entered. Permission to search a folder is not modelled. -/
def chdir (fs : Fs) (p : Str) : Bool × Fs :=
  match fs.locate (cstr p) with
  | none => (false, fs)
  | some l => if fs.stat p = some .folder then (true, { fs with cwd := l }) else (false, fs)

/-- `getcwd`: the absolute name of the working directory, or null if it is gone. -/
def getcwd (fs : Fs) : Option Str :=
  if fs.node fs.cwd = some .folder then some (47 :: List.intercalate [47] fs.cwd) else none

/-- `current_path( p )` (flut/filesystem.cpp:156-159): the result of `chdir` is ignored. -/
def setCurrentPath (fs : Fs) (p : Str) : Fs := (fs.chdir p).2

/-- `path( const char* )` (flut/system/path.hpp:22): a null pointer is undefined. -/
def pathOfPointer : Option Str → Res Str
  | none => .ub
  | some s => .ok (cstr s)

/-- `current_path()` (flut/filesystem.cpp:161-167). -/
def currentPath (fs : Fs) : Res Str := pathOfPointer fs.getcwd

/-- `get_documents_folder` (flut/filesystem.cpp:40-47); the argument is the variable `HOME` of the environment. -/
def documentsFolder (home : Option Str) : Res Str := pathOfPointer home

/-- `get_application_folder` (flut/filesystem.cpp:49-58). -/
def applicationFolder : Str := []

end Flut.Fs
