import Verif.Model.Data
import Verif.Model.PropNode
import Verif.Model.Numeric

/-!
# Builds without assertions

With `FLUT_USE_ASSERT` defined as 0, `flut_assert` is nothing (flut/system/assert.hpp:24). The functions below are those of the other
models without it; sizes are 64-bit numbers where they can now fall below zero. None of the expressions that are asserted changes
anything.
-/

namespace Flut

namespace NoAssert

section Deque

variable {α : Type}

/-- `pop_back` (flut/circular_deque.hpp:30). -/
def popBack (d : CDeque α) : Res (CDeque α) := .ok { d with size := subWrap d.size 1 }

/-- `pop_front` (flut/circular_deque.hpp:31). -/
def popFront (d : CDeque α) : Res (CDeque α) := do
  let i ← CDeque.modC (d.front + 1) d.capacity
  .ok { d with front := i, size := subWrap d.size 1 }

/-- The place of `back` (flut/circular_deque.hpp:33). -/
def backPlace (d : CDeque α) : Res Nat := CDeque.modC (subWrap ((d.front + d.size) % 2 ^ 64) 1) d.capacity

/-- The non-const `back` (flut/circular_deque.hpp:33). -/
def back (d : CDeque α) : Res α := do
  let i ← backPlace d
  d.bufGet i

/-- `front` (flut/circular_deque.hpp:36-37). -/
def front (d : CDeque α) : Res α := d.bufGet d.front

/-- `push_back` (flut/circular_deque.hpp:18-21). -/
def pushBack (v : α) (d : CDeque α) : Res (CDeque α) :=
  let d := { d with size := (d.size + 1) % 2 ^ 64 }
  if d.size > d.capacity then d.bufInsert (d.front + d.size - 1) v
  else do
    let i ← backPlace d
    d.bufSet i v

/-- `push_front` (flut/circular_deque.hpp:22-25). -/
def pushFront (v : α) (d : CDeque α) : Res (CDeque α) :=
  let d := { d with size := (d.size + 1) % 2 ^ 64 }
  if d.size > d.capacity then d.bufInsert d.front v
  else do
    let i ← CDeque.modC (subWrap (d.front + d.capacity) 1) d.capacity
    let d := { d with front := i }
    d.bufSet d.front v

/-- One operation. -/
def run : CDeque.Op α → CDeque α → Res (CDeque α)
  | .pushBack v, d => pushBack v d
  | .pushFront v, d => pushFront v d
  | .popBack, d => popBack d
  | .popFront, d => popFront d
  | .clear, d => .ok d.clear

/-- A history of operations. -/
def runAll : List (CDeque.Op α) → CDeque α → Res (CDeque α)
  | [], d => .ok d
  | op :: ops, d => do
    let d ← run op d
    runAll ops d

end Deque

section Header

variable {L : Type} [DecidableEq L]

/-- `add` (flut/buffer/data_header.hpp:18-22). -/
def headerAdd (label : L) (h : Header L) : Res (Nat × Header L) :=
  let ls := h.labels ++ [label]
  .ok (ls.length - 1, ⟨ls, h.indices.assign 0 label (ls.length - 1)⟩)

/-- `resize` (flut/buffer/data_header.hpp:24). -/
def headerResize (dl : L) (s : Nat) (h : Header L) : Res (Header L) := .ok { h with labels := vresize h.labels s dl }

/-- `set` (flut/buffer/data_header.hpp:36-41). -/
def headerSet (idx : Nat) (label : L) (h : Header L) : Res (Nat × Header L) := do
  let ls ← vset h.labels idx label
  .ok (idx, ⟨ls, h.indices.assign 0 label (ls.length - 1)⟩)

/-- One operation; adding a channel to a storage or table is growing and then labelling the last channel. -/
def headerRun (dl : L) : Header.Op L → Header L → Res (Header L)
  | .add l, h => do
    let (_, h) ← headerAdd l h
    .ok h
  | .append l, h => do
    let h ← headerResize dl (h.size + 1) h
    let (_, h) ← headerSet (h.size - 1) l h
    .ok h
  | .resize s, h => headerResize dl s h
  | .clear, _ => .ok .clear

/-- A history of operations. -/
def headerRunAll (dl : L) : List (Header.Op L) → Header L → Res (Header L)
  | [], h => .ok h
  | op :: ops, h => do
    let h ← headerRun dl op h
    headerRunAll dl ops h

end Header

section Data

variable {α L : Type} [DecidableEq L]

/-- `at` of a `storage` (flut/storage.hpp:72-73). -/
def storageAt (frame channel : Nat) (s : Storage α L) : Res α := vget s.data (frame * s.channels + channel)

/-- `sto.at( frame, channel ) = x` (flut/storage.hpp:70-71). -/
def storagePutAt (frame channel : Nat) (x : α) (s : Storage α L) : Res (Storage α L) := s.put frame channel x

/-- `sto[ channel ]` (flut/storage.hpp:80); without frames there is no data, so that every place is outside. -/
def storageLast (channel : Nat) (s : Storage α L) : Res α := if s.frames = 0 then .ub else s.get (s.frames - 1) channel

/-- `add_frame( data )` (flut/storage.hpp:50-55): copying more than there is room for is undefined. -/
def storageAddFrame (dv : α) (xs : List α) (s : Storage α L) : Res (Storage α L) :=
  let d := vresize s.data (s.data.length + s.channels) dv
  if xs.length ≤ s.channels then
    .ok { s with data := d.take (d.length - s.channels) ++ xs ++ d.drop (d.length - s.channels + xs.length), frames := s.frames + 1 }
  else .ub

/-- `at` of a `circular_frame_buffer` (flut/buffer/circular_frame_buffer.hpp:54-61). -/
def frameAt (frame channel : Nat) (b : FrameBuf α L) : Res α := b.get frame channel

/-- `operator()( row, col )` of a `table` (flut/table.hpp:57). -/
def tableGet (row col : Nat) (t : Table α L) : Res α := vget t.data (row * t.cols.size + col)

/-- `t( row, col ) = x` (flut/table.hpp:58). -/
def tablePut (row col : Nat) (x : α) (t : Table α L) : Res (Table α L) := do
  let d ← vset t.data (row * t.cols.size + col) x
  .ok { t with data := d }

/-- `get_child( idx )` (flut/prop_node.hpp:149-150). -/
def getChildAt (idx : Nat) : PN → Res (PN × PN)
  | .mk _ v cs => match cs[idx]? with
    | none => .ub
    | some kn => .ok (kn.2.clear, .mk true v cs)

/-- `get_key( idx )` (flut/prop_node.hpp:153). -/
def getKey (idx : Nat) : PN → Res (Str × PN)
  | .mk _ v cs => match cs[idx]? with
    | none => .ub
    | some kn => .ok (kn.1, .mk true v cs)

/-- `back_index` (flut/container_tools.hpp:68-69). -/
def backIndex (vec : List α) : Res Nat := .ok (subWrap vec.length 1)

end Data

end NoAssert

end Flut
