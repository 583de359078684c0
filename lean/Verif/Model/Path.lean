import Verif.Model.Strings

/-!
# Model of `flut/system/path.hpp|cpp` and of `tidy_identifier`

A `path` is the string it wraps (/repo/flut/system/path.hpp:54); modifying member functions return the
new value. The preferred separator is `'/'` on every platform (/repo/flut/system/path.cpp:7-10).
-/

namespace Flut

/-- `path::last_separator_pos`, /repo/flut/system/path.cpp:85-88. -/
def lastSeparatorPos (p : Str) : Option Nat := findLast isSep p

/-- `path::replace_extension`, /repo/flut/system/path.cpp:12-21. `data_.erase(n)` keeps the first `n`
characters. -/
def replaceExtension (p ext : Str) : Str :=
  let q := match findLast (· == 46) p with
    | some n => p.take n
    | none => p
  if ext.isEmpty then q else q ++ (46 :: ext)

/-- `path::remove_filename`, /repo/flut/system/path.cpp:23-29. -/
def removeFilename (p : Str) : Res Str :=
  match lastSeparatorPos p with
  | some n => substr p 0 (some n)
  | none => .ok []

/-- `path::has_filename`, /repo/flut/system/path.cpp:75-78 (for an empty path both sides are `npos`). -/
def hasFilename (p : Str) : Bool := lastSeparatorPos p != predWrap p.length

/-- `path::has_parent_path`, /repo/flut/system/path.cpp:80-83. -/
def hasParentPath (p : Str) : Bool := (lastSeparatorPos p).isSome

/-- `path::operator/=`, /repo/flut/system/path.cpp:90-99. -/
def joinAssign (p q : Str) : Str := p ++ (if hasFilename p then 47 :: q else q)

/-- `operator/`, /repo/flut/system/path.cpp:101-114. -/
def join (p q : Str) : Str := if hasFilename p then p ++ [47] ++ q else p ++ q

/-- `path::replace_filename`, /repo/flut/system/path.cpp:31-35. -/
def replaceFilename (p f : Str) : Res Str := do
  let d ← removeFilename p
  .ok (joinAssign d f)

/-- `path::make_preferred`, /repo/flut/system/path.cpp:37-42. -/
def makePreferred (p : Str) : Str := p.map fun c => if c = 47 ∨ c = 92 then 47 else c

/-- `path::parent_path`, /repo/flut/system/path.cpp:44-48. -/
def parentPath (p : Str) : Res Str :=
  match lastSeparatorPos p with
  | some n => substr p 0 (some n)
  | none => .ok []

/-- `path::extension`, /repo/flut/system/path.cpp:50-54. -/
def extension (p : Str) : Res Str :=
  match findLast (· == 46) p with
  | some n => substr p (n + 1) none
  | none => .ok []

/-- `path::filename`, /repo/flut/system/path.cpp:56-60. -/
def filename (p : Str) : Res Str :=
  match lastSeparatorPos p with
  | some n => substr p (n + 1) none
  | none => .ok []

/-- `path::stem`, /repo/flut/system/path.cpp:62-68. With no dot `n2` is `npos`, which is at least `n1`,
and `npos - n1` acts as `npos`. -/
def stem (p : Str) : Res Str :=
  let n1 := succWrap (lastSeparatorPos p)
  match findLast (· == 46) p with
  | some n2 => substr p n1 (if n2 ≥ n1 then some (n2 - n1) else none)
  | none => substr p n1 none

/-- `tidy_identifier`, /repo/flut/system_tools.cpp:56-64. -/
def tidyIdentifier (id : Str) : Res Str :=
  match findLast (· == 58) id with
  | some pos => do
    let t ← substr id (pos + 1) none
    trimStr t b!"_"
  | none =>
    if strBeginsWith id b!"m_" then do
      let t ← substr id 2 none
      trimRightStr t b!"_"
    else trimStr id b!"_"

end Flut
