import Verif.Model.DataRefs
import Verif.Spec.Data

/-!
# Matrices with references to their cells
-/

namespace Flut.Spec

/-- A matrix, room for a number of cells, and the cell (row and column) that each reference of the program refers to (`none` if it must not be used). -/
structure Grid (α L : Type) where
  m : Matrix α L
  room : Nat
  handle : Nat → Option (Nat × Nat)

namespace Grid

variable {α L : Type} [DecidableEq L]

/-- The matrix that a storage is constructed as. -/
def init (frames channels : Nat) (value : α) : Grid α L := ⟨.init frames channels value, channels * frames, fun _ => none⟩

/-- The matrix has grown. References are lost if there are more columns and there was more than one row, or if there is no room. -/
def grown (grow : Nat → Nat → Nat) (m' : Matrix α L) (g : Grid α L) : Grid α L :=
  if g.m.cols < m'.cols ∧ 1 < g.m.rows.length then ⟨m', m'.rows.length * m'.cols, fun _ => none⟩
  else if m'.rows.length * m'.cols ≤ g.room then ⟨m', g.room, g.handle⟩
  else ⟨m', max (m'.rows.length * m'.cols) (grow g.room (m'.rows.length * m'.cols)), fun _ => none⟩

/-- The column of a label, which is added if there is none. -/
def column (grow : Nat → Nat → Nat) (dv : α) (l : L) (g : Grid α L) : Nat × Grid α L :=
  match g.m.labels.findIdx? (· = some l) with
  | some c => (c, g)
  | none => (g.m.cols, g.grown grow ⟨g.m.labels ++ [some l], g.m.rows.map (· ++ [dv])⟩)

/-- The value of a cell. -/
def cell (f c : Nat) (g : Grid α L) : Option α := g.m.rows[f]?.bind (·[c]?)

/-- Set the value of a cell. -/
def write (f c : Nat) (v : α) (g : Grid α L) : Grid α L := { g with m := ⟨g.m.labels, g.m.rows.modify f (·.set c v)⟩ }

/-- Whether the column of the label can be added (or is there already) without losing references. -/
def Steady (l : L) (g : Grid α L) : Prop :=
  some l ∈ g.m.labels ∨ (g.m.rows.length ≤ 1 ∧ g.m.rows.length * (g.m.cols + 1) ≤ g.room)

instance (l : L) (g : Grid α L) : Decidable (g.Steady l) := inferInstanceAs (Decidable (_ ∨ _))

/-- One step, with what is read. -/
def step (grow : Nat → Nat → Nat) (dv : α) : StorageRefs.Op α L → Grid α L → Res (Option α × Grid α L)
  | .op .clear, g => .ok (none, ⟨⟨[], []⟩, g.room, fun _ => none⟩)
  | .op o, g => do
    let m ← g.m.step dv o
    .ok (none, g.grown grow m)
  | .ref h f c, g =>
    if f < g.m.rows.length ∧ c < g.m.cols then
      .ok (none, { g with handle := fun h' => if h' = h then some (f, c) else g.handle h' })
    else .throws .assertion
  | .refLabel h l, g =>
    if g.m.rows = [] then .throws .assertion
    else
      let (c, g) := g.column grow dv l
      .ok (none, { g with handle := fun h' => if h' = h then some (g.m.rows.length - 1, c) else g.handle h' })
  | .load h, g =>
    match g.handle h with
    | none => .ub
    | some (f, c) => match g.cell f c with
      | none => .ub
      | some v => .ok (some v, g)
  | .store h v, g =>
    match g.handle h with
    | none => .ub
    | some (f, c) => .ok (none, g.write f c v)
  | .assignFrom rightFirst l j, g =>
    if g.m.rows = [] then .throws .assertion
    else
      let (c, g) := g.column grow dv (if rightFirst then j else l)
      if g.Steady (if rightFirst then l else j) then
        let (c', g) := g.column grow dv (if rightFirst then l else j)
        match g.cell (g.m.rows.length - 1) (if rightFirst then c else c') with
        | none => .ub
        | some v => .ok (none, g.write (g.m.rows.length - 1) (if rightFirst then c' else c) v)
      else .ub

/-- A program, with everything that it reads. -/
def run (grow : Nat → Nat → Nat) (dv : α) : List (StorageRefs.Op α L) → Grid α L → Res (List α × Grid α L)
  | [], g => .ok ([], g)
  | op :: ops, g => do
    let (a, g) ← g.step grow dv op
    let (as, g) ← g.run grow dv ops
    .ok (a.toList ++ as, g)

end Grid

end Flut.Spec
