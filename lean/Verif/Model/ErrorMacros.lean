import Verif.Model.Containers
import Verif.Model.DynArray
import Verif.Model.BoundsText
import Verif.Model.FileSystem

/-!
# Errors in builds with and without exceptions

`flut/system/assert.hpp`. A macro is replaced by text, and of the text behind an `if` or `else` without braces only the first
statement belongs to it. `FLUT_USE_EXCEPTIONS` is the parameter `exc`.
-/

namespace Flut

namespace Macro

/-- Statements of C++, as far as they occur here. -/
inductive Stmt (α : Type) where
  | show (text : Str)
  | exit
  | throw (e : Exn)
  | ret (r : Res α)
  | ifThen (c : Bool) (s : Stmt α)
  | ifElse (c : Bool) (s t : Stmt α)

/-- How a function ends: it returns (or is undefined), throws, or ends the program. -/
inductive End (α : Type) where
  | returned (r : Res α)
  | thrown (e : Exn)
  | exited
deriving DecidableEq

variable {α : Type}

/-- The end of a function whose last expression has this outcome. -/
def End.of : Res α → End α
  | .throws e => .thrown e
  | r => .returned r

/-- One statement: the lines that are shown, and how the function ends if it does. -/
def Stmt.run : Stmt α → List Str × Option (End α)
  | .show text => ([text], none)
  | .exit => ([], some .exited)
  | .throw e => ([], some (.thrown e))
  | .ret r => ([], some (.of r))
  | .ifThen c s => if c then s.run else ([], none)
  | .ifElse c s t => if c then s.run else t.run

/-- A sequence of statements. -/
def run : List (Stmt α) → List Str × Option (End α)
  | [] => ([], none)
  | s :: ss =>
    let r := s.run
    match r.2 with
    | some e => (r.1, some e)
    | none =>
      let q := run ss
      (r.1 ++ q.1, q.2)

/-- `FLUT_EXCEPTION( message )` (flut/system/assert.hpp:12 and 14), hence `flut_error` (29-30): the first statement, and those behind
it. -/
def exception (exc : Bool) (message : Str) : Stmt α × List (Stmt α) :=
  if exc then (.throw .flutError, []) else (.show message, [.exit])

/-- `flut_error_if( condition, message )` (flut/system/assert.hpp:33-34). -/
def errorIf (exc : Bool) (condition : Bool) (message : Str) : List (Stmt α) :=
  let m := exception exc message
  .ifThen condition m.1 :: m.2

/-- `if ( condition ) s; else flut_error( message );`. -/
def elseError (exc : Bool) (condition : Bool) (s : Stmt α) (message : Str) : List (Stmt α) :=
  let m := exception exc message
  .ifElse condition s m.1 :: m.2

/-- `at` of a `flat_map` (flut/flat_map.hpp:52-62). -/
def mapAt {K V : Type} [DecidableEq K] (exc : Bool) (toStr : K → Str) (key : K) (m : FlatMap K V) : List (Stmt V) :=
  let it := m.find key
  errorIf exc it.isNone (b!"Could not find key: " ++ toStr key) ++ [.ret (match it.bind fun i => m[i]? with | some kv => .ok kv.2 | none => .ub)]

/-- `at` of a `dynarray` for reading (flut/dynarray.hpp:27-28), for an array whose size is `n`. -/
def dynAt (exc : Bool) (h : Heap α) (a : DynArray) (n i : Nat) : List (Stmt α) :=
  errorIf exc (decide (i ≥ n)) b!"dynarray index out of bounds" ++ [.ret (a.get h i)]

/-- `get_child( key )` of a `prop_node` (flut/prop_node.hpp:143-146). -/
def child (exc : Bool) (key : Str) : PN → List (Stmt (Nat × PN))
  | .mk _ v cs =>
    let it := PN.findIdx key cs
    errorIf exc it.isNone (b!"Could not find key: " ++ key) ++ [.ret (match it with | some i => .ok (i, .mk true v cs) | none => .ub)]

/-- `create` of a `factory` (flut/factory.hpp:27-31 and 38). -/
def create {A T : Type} (exc : Bool) (name : Str) (args : A) (m : FlatMap Str (A → T)) : List (Stmt T) :=
  let it := m.find name
  errorIf exc it.isNone (b!"Unregistered type: " ++ name) ++ [.ret (match it.bind fun i => m[i]? with | some kv => .ok (kv.2 args) | none => .ub)]

/-- `dictionary::operator()( const string& )` (flut/dictionary.hpp:25-29). -/
def dictElem {T : Type} (exc : Bool) (str : Str) (data : List (T × Str)) : List (Stmt T) :=
  let it := data.find? fun p => decide (str = p.2)
  errorIf exc it.isNone (b!"Could not find element with name " ++ str) ++ [.ret (match it with | some p => .ok p.1 | none => .ub)]

/-- `dictionary::operator()( const T& )` (flut/dictionary.hpp:18-22). -/
def dictName {T : Type} [DecidableEq T] (exc : Bool) (toStr : T → Str) (e : T) (data : List (T × Str)) : List (Stmt Str) :=
  let it := data.find? fun p => decide (e = p.1)
  errorIf exc it.isNone (b!"Could not find element " ++ toStr e) ++ [.ret (match it with | some p => .ok p.2 | none => .ub)]

/-- `lookup` (flut/dictionary.hpp:45-52). The returns of the loop come first; behind it the error is not under a condition. -/
def lookup {T : Type} (exc : Bool) (value : Str) (table : List (Str × T)) : List (Stmt T) :=
  let m := exception exc (b!"Could not find " ++ value)
  table.map (fun e => .ifThen (decide (value = e.1)) (.ret (.ok e.2))) ++ m.1 :: m.2

/-- `bounds( const prop_node& )` (flut/math/bounds.hpp:44-57), for reading by `ofStr` that is the same in both builds. What the first
two branches do is `Bounds.ofNode`; a branch that fails ends the constructor, one that does not goes on behind the `else`. -/
def boundsOf (exc : Bool) (ofStr : Str → Res α) (lowest max : α) (n : PN) : List (Stmt (Bounds α)) :=
  let r := Bounds.ofNode ofStr lowest max n
  elseError exc (n.hasValue || decide (n.size > 0)) (.ifThen (!r.isOk) (.ret r)) b!"Cannot read bounds from prop_node" ++ [.ret r]

/-- `load_string` (flut/filesystem.cpp:141-155); `ec` is whether there is an error code for the caller. The error is between braces. -/
def loadString (exc : Bool) (fs : Fs) (p : Str) (ec : Bool) : List (Stmt Str) :=
  match fs.openRead p with
  | none => elseError exc ec (.ret (.ok [])) (b!"Could not open " ++ p)
  | some l => [.ret (.ok (fs.readAll l))]

end Macro

end Flut
