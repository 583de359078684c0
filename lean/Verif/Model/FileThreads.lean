import Verif.Model.FileSystem

/-!
# Several programs that use one file system at the same time

The functions of `flut/filesystem.cpp` as sequences of calls of the operating system. Each call happens at once, calls of different programs in any order.
-/

namespace Flut

/-- A program made of calls of the operating system, each followed by what is done with its result. -/
inductive FsProg (α : Type) where
  | ret (a : α)
  | folderExists (p : Str) (k : Bool → FsProg α)
  | mkdir (p : Str) (k : Bool → FsProg α)
  | openRead (p : Str) (k : Option Loc → FsProg α)
  | openWrite (p : Str) (k : Option Loc → FsProg α)
  | read (l : Loc) (k : Str → FsProg α)
  | write (l : Loc) (content : Str) (k : FsProg α)

namespace FsProg

variable {α : Type}

/-- The next call of a program, if it has not ended. -/
def next : FsProg α → Fs → Option (FsProg α × Fs)
  | .ret _, _ => none
  | .folderExists p k, fs => some (k (fs.folderExists p), fs)
  | .mkdir p k, fs => some (k (fs.mkdir p).1, (fs.mkdir p).2)
  | .openRead p k, fs => some (k (fs.openRead p), fs)
  | .openWrite p k, fs =>
    match fs.openWrite p with
    | none => some (k none, fs)
    | some (l, fs) => some (k (some l), fs)
  | .read l k, fs => some (k (fs.readAll l), fs)
  | .write l c k, fs => some (k, fs.put l (.file c))

/-- A program that has the file system for itself. -/
def run : FsProg α → Fs → α × Fs
  | .ret a, fs => (a, fs)
  | .folderExists p k, fs => run (k (fs.folderExists p)) fs
  | .mkdir p k, fs => run (k (fs.mkdir p).1) (fs.mkdir p).2
  | .openRead p k, fs => run (k (fs.openRead p)) fs
  | .openWrite p k, fs =>
    match fs.openWrite p with
    | none => run (k none) fs
    | some (l, fs) => run (k (some l)) fs
  | .read l k, fs => run (k (fs.readAll l)) fs
  | .write l c k, fs => run k (fs.put l (.file c))

/-- `create_directories` (flut/filesystem.cpp:111-122), followed by what is done with its result. The first argument is more than the number of calls within one
another. -/
def createDirs : Nat → Str → (Bool → FsProg α) → FsProg α
  | 0, _, k => k false
  | n + 1, p, k =>
    if hasParentPath p then
      match parentPath p with
      | .ok q => .folderExists q fun b => if b then .mkdir p k else createDirs n q fun _ => .mkdir p k
      | _ => .mkdir p k
    else .mkdir p k

/-- The loop of `create_unique_folder` (flut/filesystem.cpp:128-138); the first number is that of the rounds left. -/
def uniqueFrom (folder : Str) : Nat → Nat → FsProg (Res Str)
  | 0, _ => .ret (.throws .flutError)
  | n + 1, i => .folderExists (Fs.uniqueName folder i) fun b =>
    if b then uniqueFrom folder n (i + 1)
    else createDirs ((Fs.uniqueName folder i).length + 1) (Fs.uniqueName folder i) fun made =>
      if made then .ret (.ok (Fs.uniqueName folder i)) else uniqueFrom folder n (i + 1)

/-- `create_unique_folder` (flut/filesystem.cpp:124-139). -/
def uniqueFolder (folder : Str) (maxAttempts : Int) : FsProg (Res Str) := uniqueFrom folder maxAttempts.toNat 0

/-- `create_directories` as a program: the folder it says to have made, or an error that stands for `false`. -/
def directories (folder : Str) : FsProg (Res Str) :=
  createDirs (folder.length + 1) folder fun made => if made then .ret (.ok folder) else .ret (.throws .flutError)

/-- `copy_file` (flut/filesystem.cpp:60-77), followed by what is done with its result. What the source holds is read and written at once; in truth this
happens in parts. -/
def copyFile (src dst : Str) (overwrite : Bool) (k : Bool → FsProg α) : FsProg α :=
  let copy : FsProg α := .openRead src fun s => .openWrite dst fun d =>
    match s, d with
    | some s, some d => .read s fun c => .write d c (k true)
    | _, _ => k false
  if overwrite then copy else .openRead dst fun f => if f.isSome then k false else copy

/-- `load_string` without an error code (flut/filesystem.cpp:141-154), followed by what is done with its result. -/
def loadString (p : Str) (k : Res Str → FsProg α) : FsProg α := .openRead p fun l =>
  match l with
  | none => k (.throws .flutError)
  | some l => .read l fun c => k (.ok c)

/-- The result of a program that has ended. -/
def result : FsProg α → Option α
  | .ret a => some a
  | _ => none

end FsProg

/-- A running program, with its working directory. -/
structure FsProc (α : Type) where
  cwd : Loc
  prog : FsProg α

/-- Several running programs and the file system they share; its working directory is not used. -/
structure FsSystem (α : Type) where
  fs : Fs
  procs : List (FsProc α)

/-- The file system as a program with this working directory sees it. -/
def Fs.within (fs : Fs) (cwd : Loc) : Fs := { fs with cwd := cwd }

/-- One call: by one of the programs, or by something else that adds files and folders and changes files, but removes nothing. -/
inductive FsSystem.Step {α : Type} : FsSystem α → FsSystem α → Prop
  | call (s : FsSystem α) (i : Nat) (p : FsProc α) (prog : FsProg α) (fs : Fs) (hi : s.procs[i]? = some p)
      (h : p.prog.next (s.fs.within p.cwd) = some (prog, fs)) : Step s ⟨fs.within s.fs.cwd, s.procs.set i ⟨p.cwd, prog⟩⟩
  | other (s : FsSystem α) (fs : Fs) (h1 : ∀ l, s.fs.node l = some .folder → fs.node l = some .folder) (h2 : ∀ l, s.fs.node l ≠ none → fs.node l ≠ none)
      (h3 : fs.writable = s.fs.writable) : Step s ⟨fs, s.procs⟩

/-- A function that creates folders, with its arguments. -/
inductive FsCall where
  | unique (folder : Str) (maxAttempts : Int)
  | directories (folder : Str)

/-- What is called (flut/filesystem.cpp:111-139). -/
def FsCall.prog : FsCall → FsProg (Res Str)
  | .unique folder n => .uniqueFolder folder n
  | .directories folder => .directories folder

/-- Programs that are about to call such functions, each in its working directory. -/
def FsSystem.start (fs : Fs) (calls : List (Loc × FsCall)) : FsSystem (Res Str) := ⟨fs, calls.map fun c => ⟨c.1, c.2.prog⟩⟩

/-- The programs take turns as told. -/
def FsSystem.turns {α : Type} (s : FsSystem α) : List Nat → Option (FsSystem α)
  | [] => some s
  | i :: is =>
    match s.procs[i]? with
    | none => none
    | some p =>
      match p.prog.next (s.fs.within p.cwd) with
      | none => none
      | some (prog, fs) => FsSystem.turns ⟨fs.within s.fs.cwd, s.procs.set i ⟨p.cwd, prog⟩⟩ is

/-- Any number of calls. -/
inductive FsSystem.Steps {α : Type} : FsSystem α → FsSystem α → Prop
  | refl (s : FsSystem α) : Steps s s
  | tail {s t u : FsSystem α} (h : Steps s t) (h' : t.Step u) : Steps s u

end Flut
