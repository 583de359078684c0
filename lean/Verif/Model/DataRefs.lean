import Verif.Model.Data
import Verif.Model.MapRefs

/-!
# References to the values of a `storage` and of a `table`

The contents are those of `Model/Data.lean`. A vector that is made with `n` elements has room for `n`.
-/

namespace Flut

/-- A vector is replaced by a new one of `n` elements. -/
def Slots.fresh (n : Nat) (s : Slots) : Slots := ⟨n, s.next + 1, fun _ => s.next⟩

/-- A `storage` and the references to its values that a program has. -/
structure StorageRefs (α L : Type) where
  sto : Storage α L
  slots : Slots
  handle : Nat → Option Ref

namespace StorageRefs

variable {α L : Type} [DecidableEq L]

/-- The constructor, /repo/flut/storage.hpp:16. -/
def new (dl : L) (frames channels : Nat) (value : α) : StorageRefs α L :=
  ⟨.new dl frames channels value, ⟨channels * frames, 1, fun _ => 0⟩, fun _ => none⟩

/-- What `resize` does to the vector, storage.hpp:99-120. -/
def resizeSlots (grow : Nat → Nat → Nat) (nframes nchannels : Nat) (x : StorageRefs α L) : Slots :=
  if nchannels > x.sto.channels then
    if x.sto.frames > 1 then x.slots.fresh (nchannels * nframes) else x.slots.room grow (nframes * nchannels)
  else x.slots.room grow (nframes * nchannels)

/-- What an operation does to the vector, storage.hpp:20-120. -/
def slotsAfter (grow : Nat → Nat → Nat) (x : StorageRefs α L) : Storage.Op α L → Slots
  | .addChannel _ _ => x.resizeSlots grow x.sto.frames (x.sto.channels + 1)
  | .addChannelData _ xs => x.resizeSlots grow (max x.sto.frames xs.length) (x.sto.channels + 1)
  | .addFrame _ => x.slots.room grow (x.sto.data.length + x.sto.channels)
  | .addFrameData _ => x.slots.room grow (x.sto.data.length + x.sto.channels)
  | .resize nf nc _ => x.resizeSlots grow nf nc
  | .put _ _ _ => x.slots
  | .clear => x.slots.cut 0

/-- `sto[ label ]`, storage.hpp:84: a reference to the value in the last frame, and what there is then. -/
def byLabel (grow : Nat → Nat → Nat) (dl : L) (dv : α) (l : L) (x : StorageRefs α L) : Res (Ref × StorageRefs α L) := do
  let i ← x.sto.findChannel l
  let slots := if i = none then x.resizeSlots grow x.sto.frames (x.sto.channels + 1) else x.slots
  let (i, s) ← x.sto.findOrAddChannel dl l dv
  if s.data.isEmpty then .throws .assertion
  else if s.frames = 0 then .ub
  else .ok (slots.ref ((s.frames - 1) * s.channels + i), { x with sto := s, slots := slots })

/-- Reading through a reference. -/
def load (r : Ref) (x : StorageRefs α L) : Res α := if x.slots.valid r then vget x.sto.data r.idx else .ub

/-- Writing through a reference. -/
def store (r : Ref) (v : α) (x : StorageRefs α L) : Res (StorageRefs α L) :=
  if x.slots.valid r then do
    let d ← vset x.sto.data r.idx v
    .ok { x with sto := { x.sto with data := d } }
  else .ub

/-- What a program does with a `storage` and with references to its values. -/
inductive Op (α L : Type) where
  /-- An operation that changes the storage. -/
  | op (o : Storage.Op α L)
  /-- `auto& h = sto.at( frame, channel )` -/
  | ref (h frame channel : Nat)
  /-- `auto& h = sto[ label ]` -/
  | refLabel (h : Nat) (l : L)
  /-- `h` -/
  | load (h : Nat)
  /-- `h = v` -/
  | store (h : Nat) (v : α)
  /-- `sto[ l ] = sto[ j ]`; which side is evaluated first is open in C++14 -/
  | assignFrom (rightFirst : Bool) (l j : L)

/-- One step, with what is read. -/
def step (grow : Nat → Nat → Nat) (dl : L) (dv : α) : Op α L → StorageRefs α L → Res (Option α × StorageRefs α L)
  | .op o, x => do
    let s ← x.sto.run dl dv o
    .ok (none, { x with sto := s, slots := x.slotsAfter grow o })
  | .ref h f c, x =>
    if f < x.sto.frames ∧ c < x.sto.channels then
      .ok (none, { x with handle := fun h' => if h' = h then some (x.slots.ref (f * x.sto.channels + c)) else x.handle h' })
    else .throws .assertion
  | .refLabel h l, x => do
    let (r, x) ← x.byLabel grow dl dv l
    .ok (none, { x with handle := fun h' => if h' = h then some r else x.handle h' })
  | .load h, x =>
    match x.handle h with
    | none => .ub
    | some r => do
      let v ← x.load r
      .ok (some v, x)
  | .store h v, x =>
    match x.handle h with
    | none => .ub
    | some r => do
      let x ← x.store r v
      .ok (none, x)
  | .assignFrom rightFirst l j, x => do
    let (r, x) ← x.byLabel grow dl dv (if rightFirst then j else l)
    let (r', x) ← x.byLabel grow dl dv (if rightFirst then l else j)
    let v ← x.load (if rightFirst then r else r')
    let x ← x.store (if rightFirst then r' else r) v
    .ok (none, x)

/-- A program, with everything that it reads. -/
def run (grow : Nat → Nat → Nat) (dl : L) (dv : α) : List (Op α L) → StorageRefs α L → Res (List α × StorageRefs α L)
  | [], x => .ok ([], x)
  | op :: ops, x => do
    let (a, x) ← x.step grow dl dv op
    let (as, x) ← x.run grow dl dv ops
    .ok (a.toList ++ as, x)

end StorageRefs

namespace Storage

variable {α L : Type} [DecidableEq L]

/-- `std::copy` of `n` elements of a vector from place `i` on to the place `j` of the same vector. -/
def copyWithin : Nat → Nat → Nat → List α → Res (List α)
  | 0, _, _, d => .ok d
  | n + 1, i, j, d => do
    let x ← vget d i
    let d ← vset d j x
    copyWithin n (i + 1) (j + 1) d

/-- `sto.add_frame( sto.data() )`, storage.hpp:50-55: `data` is the vector that is resized. -/
def addFrameOwn (dv : α) (s : Storage α L) : Res (Storage α L) :=
  if s.data.length = s.channels then do
    let d := vresize s.data (s.data.length + s.channels) dv
    let d ← copyWithin d.length 0 (d.length - s.channels) d
    .ok { s with data := d, frames := s.frames + 1 }
  else .throws .assertion

/-- The loop of storage.hpp:27 where `data` is the data of the storage. -/
def putColumnOwn (cidx : Nat) : Nat → Nat → Storage α L → Res (Storage α L)
  | 0, _, s => .ok s
  | n + 1, fidx, s => do
    let x ← vget s.data fidx
    let s ← s.put fidx cidx x
    putColumnOwn cidx n (fidx + 1) s

/-- `sto.add_channel( label, sto.data() )`, storage.hpp:23-29. -/
def addChannelOwn (dl : L) (dv : α) (label : L) (s : Storage α L) : Res (Storage α L) := do
  let s ← s.resize dl (max s.frames s.data.length) (s.channels + 1) dv
  let (_, ls) ← s.labels.set (s.channels - 1) label
  let s := { s with labels := ls }
  putColumnOwn (s.channels - 1) s.data.length 0 s

end Storage

/-- A `table` and the references to its values that a program has. -/
structure TableRefs (α L : Type) where
  tab : Table α L
  slots : Slots
  handle : Nat → Option Ref

namespace TableRefs

variable {α L : Type} [DecidableEq L]

/-- What an operation does to the vector, /repo/flut/table.hpp:18-49: `data_.resize` in `add_row` and `resize`. Moving values within the vector leaves
references where they are. -/
def slotsAfter (grow : Nat → Nat → Nat) (x : TableRefs α L) : Table.Op α L → Slots
  | .addRow _ _ => x.slots.room grow ((x.tab.rows.size + 1) * x.tab.cols.size)
  | .addColumn _ _ => x.slots.room grow (x.tab.rows.size * (x.tab.cols.size + 1))
  | .put _ _ _ => x.slots

/-- Reading through a reference. -/
def load (r : Ref) (x : TableRefs α L) : Res α := if x.slots.valid r then vget x.tab.data r.idx else .ub

/-- Writing through a reference. -/
def store (r : Ref) (v : α) (x : TableRefs α L) : Res (TableRefs α L) :=
  if x.slots.valid r then do
    let d ← vset x.tab.data r.idx v
    .ok { x with tab := { x.tab with data := d } }
  else .ub

/-- What a program does with a `table` and with references to its values. -/
inductive Op (α L : Type) where
  /-- An operation that changes the table. -/
  | op (o : Table.Op α L)
  /-- `auto& h = tab( row, column )` -/
  | ref (h row col : Nat)
  /-- `h` -/
  | load (h : Nat)
  /-- `h = v` -/
  | store (h : Nat) (v : α)

/-- One step, with what is read. -/
def step (grow : Nat → Nat → Nat) (dl : L) (dv : α) : Op α L → TableRefs α L → Res (Option α × TableRefs α L)
  | .op o, x => do
    let t ← x.tab.run dl dv o
    .ok (none, { x with tab := t, slots := x.slotsAfter grow o })
  | .ref h row col, x =>
    if row < x.tab.rows.size ∧ col < x.tab.cols.size then
      .ok (none, { x with handle := fun h' => if h' = h then some (x.slots.ref (row * x.tab.cols.size + col)) else x.handle h' })
    else .throws .assertion
  | .load h, x =>
    match x.handle h with
    | none => .ub
    | some r => do
      let v ← x.load r
      .ok (some v, x)
  | .store h v, x =>
    match x.handle h with
    | none => .ub
    | some r => do
      let x ← x.store r v
      .ok (none, x)

/-- A program, with everything that it reads. -/
def run (grow : Nat → Nat → Nat) (dl : L) (dv : α) : List (Op α L) → TableRefs α L → Res (List α × TableRefs α L)
  | [], x => .ok ([], x)
  | op :: ops, x => do
    let (a, x) ← x.step grow dl dv op
    let (as, x) ← x.run grow dl dv ops
    .ok (a.toList ++ as, x)

end TableRefs

end Flut
