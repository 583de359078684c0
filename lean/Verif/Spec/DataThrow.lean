import Verif.Spec.Data
import Verif.Model.DataThrow

/-!
# What a matrix is after calls that may throw

A repeated label costs a column without a label; everything else that throws leaves the matrix as it was, except that
writing by a new label makes the column first.
-/

namespace Flut

namespace Matrix

variable {α L : Type} [DecidableEq L]

/-- A column more, with the given label, or with none. -/
def widen (l : Option L) (v : α) (m : Matrix α L) : Matrix α L := ⟨m.labels ++ [l], m.rows.map (· ++ [v])⟩

/-- A column more from a list of values. Frames that are missing are made. -/
def widenWith (l : Option L) (dv : α) (n : Nat) (xs : List α) (m : Matrix α L) : Matrix α L :=
  ⟨m.labels ++ [l], (List.range (max m.rows.length n)).map fun i =>
    m.rows.getD i (List.replicate m.cols dv) ++ [xs.getD i dv]⟩

/-- Writing to the last row. -/
def putLast (c : Nat) (x : α) (m : Matrix α L) : Matrix α L × Option Exn :=
  if m.rows = [] then (m, some .assertion)
  else (⟨m.labels, m.rows.modify (m.rows.length - 1) (·.set c x)⟩, none)

/-- One call on the matrix: what it leaves behind, and what it throws. -/
def call (dv : α) : Storage.Call α L → Matrix α L → Matrix α L × Option Exn
  | .op (.addChannel l v), m =>
    if some l ∈ m.labels then (m.widen none v, some .assertion) else (m.widen (some l) v, none)
  | .op (.addChannelData l xs), m =>
    if some l ∈ m.labels then (m.widenWith none dv xs.length [], some .assertion)
    else (m.widenWith (some l) dv xs.length xs, none)
  | .op (.addFrame v), m => (⟨m.labels, m.rows ++ [List.replicate m.cols v]⟩, none)
  | .op (.addFrameData xs), m =>
    if xs.length = m.cols then (⟨m.labels, m.rows ++ [xs]⟩, none) else (m, some .assertion)
  | .op (.resize nf nc v), m =>
    if nf < m.rows.length ∨ nc < m.cols then (m, some .flutError)
    else (⟨m.labels ++ List.replicate (nc - m.cols) none,
      m.rows.map (· ++ List.replicate (nc - m.cols) v)
        ++ List.replicate (nf - m.rows.length) (List.replicate nc v)⟩, none)
  | .op (.put f c x), m =>
    if f < m.rows.length ∧ c < m.cols then (⟨m.labels, m.rows.modify f (·.set c x)⟩, none) else (m, some .assertion)
  | .op .clear, _ => (⟨[], []⟩, none)
  | .putLabel l x, m =>
    match m.labels.findIdx? (· = some l) with
    | some c => m.putLast c x
    | none => (m.widen (some l) dv).putLast m.cols x

/-- A history in which every exception is caught. -/
def calls (dv : α) : List (Storage.Call α L) → Matrix α L → Matrix α L × List (Option Exn)
  | [], m => (m, [])
  | c :: cs, m => ((calls dv cs (call dv c m).1).1, (call dv c m).2 :: (calls dv cs (call dv c m).1).2)

end Matrix

namespace LMatrix

variable {α L : Type} [DecidableEq L]

/-- One call on a table: what it leaves behind, and what it throws. -/
def call (dv : α) : Table.Op α L → LMatrix α L → LMatrix α L × Option Exn
  | .addRow l v, m =>
    if some l ∈ m.rowLabels then (m, some .assertion)
    else (⟨m.rowLabels ++ [some l], m.colLabels, m.rows ++ [List.replicate m.colLabels.length v]⟩, none)
  | .addColumn l _, m =>
    if some l ∈ m.colLabels then (⟨m.rowLabels, m.colLabels ++ [none], m.rows.map (· ++ [dv])⟩, some .assertion)
    else (⟨m.rowLabels, m.colLabels ++ [some l], m.rows.map (· ++ [dv])⟩, none)
  | .put r c x, m =>
    if r < m.rows.length ∧ c < m.colLabels.length then
      (⟨m.rowLabels, m.colLabels, m.rows.modify r (·.set c x)⟩, none)
    else (m, some .assertion)

/-- A history in which every exception is caught. -/
def calls (dv : α) : List (Table.Op α L) → LMatrix α L → LMatrix α L × List (Option Exn)
  | [], m => (m, [])
  | c :: cs, m => ((calls dv cs (call dv c m).1).1, (call dv c m).2 :: (calls dv cs (call dv c m).1).2)

end LMatrix

/-- Nothing that a storage showed is lost: every cell still reads as before, every label is found where it was, and there is
at most one channel more. -/
structure StorageKeeps {α L : Type} [DecidableEq L] (s s' : Storage α L) : Prop where
  frames : s.frames ≤ s'.frames
  channels : s.channels ≤ s'.channels ∧ s'.channels ≤ s.channels + 1
  cell : ∀ f c x, s.at' f c = .ok x → s'.at' f c = .ok x
  found : ∀ l i, s.labels.find l = .ok (some i) → s'.labels.find l = .ok (some i)
  label : ∀ i, i < s.channels → s'.labels.get i = s.labels.get i

/-- The same for a table. -/
structure TableKeeps {α L : Type} [DecidableEq L] (t t' : Table α L) : Prop where
  rows : t'.rows = t.rows
  channels : t.cols.size ≤ t'.cols.size ∧ t'.cols.size ≤ t.cols.size + 1
  cell : ∀ r c x, t.get r c = .ok x → t'.get r c = .ok x
  found : ∀ l i, t.cols.find l = .ok (some i) → t'.cols.find l = .ok (some i)
  label : ∀ i, i < t.cols.size → t'.cols.get i = t.cols.get i

end Flut
