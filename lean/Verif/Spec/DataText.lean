import Verif.Spec.Data

/-! # Specification of tables as text, and of cells found by label -/

namespace Flut.Spec

/-- Reading a table: every line ends with a newline, fields are separated by tabs. -/
def readTable (t : Str) : List (List Str) := (t.splitOn 10).dropLast.map (·.splitOn 9)

/-- Text of a label or cell that does not interfere with the layout. -/
def PlainField (s : Str) : Prop := (9 : Byte) ∉ s ∧ (10 : Byte) ∉ s

/-- The value in a frame under a label. -/
def valueAt {α L : Type} [DecidableEq L] (m : Matrix α L) (f : Nat) (l : L) : Option α := do
  let c ← m.labels.findIdx? (· = some l)
  let row ← m.rows[f]?
  row[c]?

/-- The value in a frame and a column. -/
def cellAt {α L : Type} (m : Matrix α L) (f c : Nat) : Option α := do
  let row ← m.rows[f]?
  row[c]?

end Flut.Spec
