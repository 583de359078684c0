import Verif.Model.FileSystem

/-!
# Specification of file systems and of what may happen to them
-/

namespace Flut

namespace Fs

/-- A proper file system: the root and the working directory are folders, and everything lies in a folder. -/
structure WF (fs : Fs) : Prop where
  root : fs.node [] = some .folder
  cwd : fs.node fs.cwd = some .folder
  parent : ∀ (l : Loc) (x : Str), fs.node (l ++ [x]) ≠ none → fs.node l = some .folder

/-- Nothing changes except that folders are added. -/
structure AddsFolders (fs fs' : Fs) : Prop where
  cwd : fs'.cwd = fs.cwd
  readable : fs'.readable = fs.readable
  writable : fs'.writable = fs.writable
  node : ∀ l : Loc, fs'.node l = fs.node l ∨ (fs.node l = none ∧ fs'.node l = some .folder)

/-- Nothing changes except at one location. -/
structure ChangesOnly (l : Loc) (fs fs' : Fs) : Prop where
  cwd : fs'.cwd = fs.cwd
  readable : fs'.readable = fs.readable
  writable : fs'.writable = fs.writable
  node : ∀ m : Loc, m ≠ l → fs'.node m = fs.node m

/-- An ordinary name of a file or folder: not empty, no separator of either kind, no NUL, and neither `.` nor `..`. -/
def PlainName (w : Str) : Prop := w ≠ [] ∧ (∀ c ∈ w, c ≠ 0 ∧ c ≠ 47 ∧ c ≠ 92) ∧ w ≠ b!"." ∧ w ≠ b!".."

instance (w : Str) : Decidable (PlainName w) := inferInstanceAs (Decidable (_ ∧ _))

/-- Names with slashes between them. -/
def slashed : List Str → Str
  | [] => []
  | [w] => w
  | w :: ws => w ++ 47 :: slashed ws

/-- An absolute or relative path made of these names. -/
def pathText (absolute : Bool) (ns : List Str) : Str := if absolute then 47 :: slashed ns else slashed ns

/-- The location where such a path starts. -/
def base (fs : Fs) (absolute : Bool) : Loc := if absolute then [] else fs.cwd

/-- The empty file system, for examples. -/
def empty : Fs := ⟨fun l => if l = [] then some .folder else none, [], fun _ => true, fun _ => true⟩

end Fs

end Flut
