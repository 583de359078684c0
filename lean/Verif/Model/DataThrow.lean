import Verif.Model.Data

/-!
# Storages and tables after an exception

What a call leaves behind when it throws, and a program that catches the exception and goes on.
-/

namespace Flut

/-- A call that changes nothing unless it succeeds. -/
def leftBy {σ : Type} (s : σ) : Res σ → σ × Res Unit
  | .ok s' => (s', .ok ())
  | .throws e => (s, .throws e)
  | .ub => (s, .ub)
  | .diverges => (s, .diverges)

namespace Storage

variable {α L : Type} [DecidableEq L]

/-- `add_channel( label, data )`, /repo/flut/storage.hpp:23-29: the storage that the call leaves behind, and its outcome. If
`labels_.set` throws, the storage has been resized already. -/
def addChannelDataLeft (dl : L) (dv : α) (label : L) (xs : List α) (s : Storage α L) : Storage α L × Res Unit :=
  match s.resize dl (max s.frames xs.length) (s.channels + 1) dv with
  | .ok s => match s.labels.set (s.channels - 1) label with
    | .ok (_, ls) =>
      let s := { s with labels := ls }
      leftBy s (putColumn (s.channels - 1) 0 xs s)
    | .throws e => (s, .throws e)
    | .ub => (s, .ub)
    | .diverges => (s, .diverges)
  | .throws e => (s, .throws e)
  | .ub => (s, .ub)
  | .diverges => (s, .diverges)

/-- `sto[ label ] = x`, storage.hpp:84, 35-38 and 80: a channel that was added stays if `sto[ channel ]` throws. -/
def putLabelLeft (dl : L) (dv : α) (label : L) (x : α) (s : Storage α L) : Storage α L × Res Unit :=
  match s.findChannel label with
  | .ok (some i) => leftBy s (s.putLast i x)
  | .ok none => match s.addChannel dl label dv with
    | (s, .ok i) => leftBy s (s.putLast i x)
    | (s, .throws e) => (s, .throws e)
    | (s, .ub) => (s, .ub)
    | (s, .diverges) => (s, .diverges)
  | .throws e => (s, .throws e)
  | .ub => (s, .ub)
  | .diverges => (s, .diverges)

/-- A call on a storage. -/
inductive Call (α L : Type) where
  /-- One of the calls of a history. -/
  | op (op : Op α L)
  /-- `sto[ label ] = x`. -/
  | putLabel (label : L) (x : α)

/-- One call: what it leaves behind, and its outcome. `add_frame( data )`, `resize` and `at` check before they change
anything, storage.hpp:51, 71 and 100. -/
def call (dl : L) (dv : α) : Call α L → Storage α L → Storage α L × Res Unit
  | .op (.addChannel l v), s =>
    match s.addChannel dl l v with
    | (s, .ok _) => (s, .ok ())
    | (s, .throws e) => (s, .throws e)
    | (s, .ub) => (s, .ub)
    | (s, .diverges) => (s, .diverges)
  | .op (.addChannelData l xs), s => s.addChannelDataLeft dl dv l xs
  | .op (.addFrame v), s => (s.addFrame v, .ok ())
  | .op (.addFrameData xs), s => leftBy s (s.addFrameData dv xs)
  | .op (.resize nf nc v), s => leftBy s (s.resize dl nf nc v)
  | .op (.put f c x), s => leftBy s (s.putAt f c x)
  | .op .clear, _ => (.clear, .ok ())
  | .putLabel l x, s => s.putLabelLeft dl dv l x

/-- A program that catches every exception and goes on with the same storage; the exceptions, in order. -/
def calls (dl : L) (dv : α) : List (Call α L) → Storage α L → Res (Storage α L × List (Option Exn))
  | [], s => .ok (s, [])
  | c :: cs, s => match call dl dv c s with
    | (s, .ok _) => do
      let (s, es) ← calls dl dv cs s
      .ok (s, none :: es)
    | (s, .throws e) => do
      let (s, es) ← calls dl dv cs s
      .ok (s, some e :: es)
    | (_, .ub) => .ub
    | (_, .diverges) => .diverges

end Storage

namespace Table

variable {α L : Type} [DecidableEq L]

/-- `add_column`, /repo/flut/table.hpp:24-27: the table that the call leaves behind, and its outcome. If `col_labels_.set`
throws, the table has been resized already. -/
def addColumnLeft (dl : L) (dv : α) (label : L) (_value : α) (t : Table α L) : Table α L × Res Unit :=
  match t.resize dl dv t.rows.size (t.cols.size + 1) with
  | .ok t => match t.cols.set (t.cols.size - 1) label with
    | .ok (_, cl) => ({ t with cols := cl }, .ok ())
    | .throws e => (t, .throws e)
    | .ub => (t, .ub)
    | .diverges => (t, .diverges)
  | .throws e => (t, .throws e)
  | .ub => (t, .ub)
  | .diverges => (t, .diverges)

/-- One call: what it leaves behind, and its outcome. `add_row` and writing a cell check before they change anything,
table.hpp:19 (data_header.hpp:19) and 58. -/
def call (dl : L) (dv : α) : Op α L → Table α L → Table α L × Res Unit
  | .addRow l v, t => leftBy t (do
    let (_, t) ← t.addRow l v
    .ok t)
  | .addColumn l v, t => t.addColumnLeft dl dv l v
  | .put r c x, t => leftBy t (t.put r c x)

/-- A program that catches every exception and goes on with the same table; the exceptions, in order. -/
def calls (dl : L) (dv : α) : List (Op α L) → Table α L → Res (Table α L × List (Option Exn))
  | [], t => .ok (t, [])
  | c :: cs, t => match call dl dv c t with
    | (t, .ok _) => do
      let (t, es) ← calls dl dv cs t
      .ok (t, none :: es)
    | (t, .throws e) => do
      let (t, es) ← calls dl dv cs t
      .ok (t, some e :: es)
    | (_, .ub) => .ub
    | (_, .diverges) => .diverges

end Table

end Flut
