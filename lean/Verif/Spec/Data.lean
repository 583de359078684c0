import Verif.Model.Data

/-!
# Specifications of labelled data

A header is a list of labels, some of them not given. A storage or a table is a list of rows.
-/

namespace Flut

/-! ### Headers -/

namespace HeaderSpec

variable {L : Type} [DecidableEq L]

/-- One operation on a list of optional labels. A label may be given only once; headers do not shrink. -/
def step : Header.Op L → List (Option L) → Res (List (Option L))
  | .add l, ls => if some l ∈ ls then .throws .assertion else .ok (ls ++ [some l])
  | .append l, ls => if some l ∈ ls then .throws .assertion else .ok (ls ++ [some l])
  | .resize n, ls => if n < ls.length then .throws .assertion else .ok (ls ++ List.replicate (n - ls.length) none)
  | .clear, _ => .ok []

/-- A history of operations. -/
def run : List (Header.Op L) → List (Option L) → Res (List (Option L))
  | [], ls => .ok ls
  | op :: ops, ls => step op ls >>= run ops

end HeaderSpec

/-- What a header shows: its size, its labels (`dl` where none was given) and the place of every label. -/
structure HeaderShows {L : Type} [DecidableEq L] (dl : L) (h : Header L) (ls : List (Option L)) : Prop where
  size : h.size = ls.length
  get : ∀ i (hi : i < ls.length), h.get i = .ok (ls[i].getD dl)
  find : ∀ l, h.find l = .ok (ls.findIdx? (· = some l))

/-! ### Matrices -/

/-- A matrix with optional column labels. -/
structure Matrix (α L : Type) where
  labels : List (Option L)
  rows : List (List α)

namespace Matrix

variable {α L : Type} [DecidableEq L]

/-- Number of columns. -/
def cols (m : Matrix α L) : Nat := m.labels.length

/-- One storage operation on the matrix. -/
def step (dv : α) : Storage.Op α L → Matrix α L → Res (Matrix α L)
  | .addChannel l v, m =>
    if some l ∈ m.labels then .throws .assertion
    else .ok ⟨m.labels ++ [some l], m.rows.map (· ++ [v])⟩
  | .addChannelData l xs, m =>
    if some l ∈ m.labels then .throws .assertion
    else .ok ⟨m.labels ++ [some l],
      (List.range (max m.rows.length xs.length)).map fun i =>
        m.rows.getD i (List.replicate m.cols dv) ++ [xs.getD i dv]⟩
  | .addFrame v, m => .ok ⟨m.labels, m.rows ++ [List.replicate m.cols v]⟩
  | .addFrameData xs, m =>
    if xs.length = m.cols then .ok ⟨m.labels, m.rows ++ [xs]⟩ else .throws .assertion
  | .resize nf nc v, m =>
    if nf < m.rows.length ∨ nc < m.cols then .throws .flutError
    else .ok ⟨m.labels ++ List.replicate (nc - m.cols) none,
      m.rows.map (· ++ List.replicate (nc - m.cols) v)
        ++ List.replicate (nf - m.rows.length) (List.replicate nc v)⟩
  | .put f c x, m =>
    if f < m.rows.length ∧ c < m.cols then .ok ⟨m.labels, m.rows.modify f (·.set c x)⟩ else .throws .assertion
  | .clear, _ => .ok ⟨[], []⟩

/-- A history of operations. -/
def run (dv : α) : List (Storage.Op α L) → Matrix α L → Res (Matrix α L)
  | [], m => .ok m
  | op :: ops, m => step dv op m >>= run dv ops

/-- The matrix a storage is constructed as. -/
def init (frames channels : Nat) (value : α) : Matrix α L :=
  ⟨List.replicate channels none, List.replicate frames (List.replicate channels value)⟩

end Matrix

/-- What a storage shows is the matrix. -/
structure StorageShows {α L : Type} [DecidableEq L] (dl : L) (s : Storage α L) (m : Matrix α L) : Prop where
  frames : s.frames = m.rows.length
  channels : s.channels = m.labels.length
  labels : HeaderShows dl s.labels m.labels
  cell : ∀ f c, f < m.rows.length → c < m.labels.length → ∃ x, m.rows[f]?.bind (·[c]?) = some x ∧
    s.at' f c = .ok x ∧ s.get f c = .ok x
  outside : ∀ f c, ¬ (f < m.rows.length ∧ c < m.labels.length) → s.at' f c = .throws .assertion

/-- The column of a label, from the first row to the last. -/
def column {α L : Type} [DecidableEq L] (m : Matrix α L) (l : L) : List α :=
  match m.labels.findIdx? (· = some l) with
  | none => []
  | some c => m.rows.filterMap (·[c]?)

/-- Two outcomes agree: both are values that `R` relates, or both are the same failure. -/
def Agree {α β : Type} (R : α → β → Prop) : Res α → Res β → Prop
  | .ok a, .ok b => R a b
  | .throws e, .throws e' => e = e'
  | .ub, .ub => True
  | .diverges, .diverges => True
  | _, _ => False

/-! ### Tables -/

/-- A matrix with row and column labels. -/
structure LMatrix (α L : Type) where
  rowLabels : List (Option L)
  colLabels : List (Option L)
  rows : List (List α)

namespace LMatrix

variable {α L : Type} [DecidableEq L]

/-- One table operation, as documented: new cells hold the given value. -/
def step : Table.Op α L → LMatrix α L → Res (LMatrix α L)
  | .addRow l v, m =>
    if some l ∈ m.rowLabels then .throws .assertion
    else .ok ⟨m.rowLabels ++ [some l], m.colLabels, m.rows ++ [List.replicate m.colLabels.length v]⟩
  | .addColumn l v, m =>
    if some l ∈ m.colLabels then .throws .assertion
    else .ok ⟨m.rowLabels, m.colLabels ++ [some l], m.rows.map (· ++ [v])⟩
  | .put r c x, m =>
    if r < m.rows.length ∧ c < m.colLabels.length then
      .ok ⟨m.rowLabels, m.colLabels, m.rows.modify r (·.set c x)⟩
    else .throws .assertion

/-- A history of operations. -/
def run : List (Table.Op α L) → LMatrix α L → Res (LMatrix α L)
  | [], m => .ok m
  | op :: ops, m => step op m >>= run ops

/-- The matrix a table is constructed as. -/
def init (rows cols : Nat) (value : α) : LMatrix α L :=
  ⟨List.replicate rows none, List.replicate cols none, List.replicate rows (List.replicate cols value)⟩

end LMatrix

/-- What a table shows is the matrix. -/
structure TableShows {α L : Type} [DecidableEq L] (dl : L) (t : Table α L) (m : LMatrix α L) : Prop where
  rowLabels : HeaderShows dl t.rows m.rowLabels
  colLabels : HeaderShows dl t.cols m.colLabels
  rows : m.rows.length = m.rowLabels.length
  cell : ∀ r c, r < m.rows.length → c < m.colLabels.length → ∃ x, m.rows[r]?.bind (·[c]?) = some x ∧
    t.get r c = .ok x
  outside : ∀ r c, ¬ (r < m.rows.length ∧ c < m.colLabels.length) → t.get r c = .throws .assertion

/-! ### Frames -/

namespace FrameSpec

variable {α : Type}

/-- The last value a history writes to a cell of a frame. -/
def written (f c : Nat) : List (FrameBuf.Op α) → Option α
  | [] => none
  | .addFrame :: ops => written f c ops
  | .put f' c' x :: ops => match written f c ops with
    | some y => some y
    | none => if f' = f ∧ c' = c then some x else none

/-- Number of frames a history adds. -/
def frames : List (FrameBuf.Op α) → Nat
  | [] => 0
  | .addFrame :: ops => frames ops + 1
  | _ :: ops => frames ops

/-- Whether a frame is one of the last `n` of `total`. -/
def Retained (n total f : Nat) : Prop := f < total ∧ total ≤ f + n

instance (n total f : Nat) : Decidable (Retained n total f) := inferInstanceAs (Decidable (_ ∧ _))

/-- Every write is to an existing channel of a frame that is retained when it happens. -/
def Legal (n channels : Nat) (ops : List (FrameBuf.Op α)) : Prop :=
  ∀ pre f c x post, ops = pre ++ .put f c x :: post → Retained n (frames pre) f ∧ c < channels

end FrameSpec

end Flut
