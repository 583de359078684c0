import Verif.Model.Containers

/-!
# `data_header`, `storage`, `table`, `circular_frame_buffer`, `debug_storage`

`size_t` is unbounded except where it is subtracted below zero. Accessing a `std::vector` outside its bounds is undefined.
-/

namespace Flut

/-- `vec[ i ]`. -/
def vget {α : Type} (v : List α) (i : Nat) : Res α :=
  match v[i]? with
  | some x => .ok x
  | none => .ub

/-- `vec[ i ] = x`. -/
def vset {α : Type} (v : List α) (i : Nat) (x : α) : Res (List α) :=
  if i < v.length then .ok (v.set i x) else .ub

/-- `vec.resize( n, x )`. -/
def vresize {α : Type} (v : List α) (n : Nat) (x : α) : List α := v.take n ++ List.replicate (n - v.length) x

/-! ### `data_header` -/

/-- `data_header<L>`, /repo/flut/buffer/data_header.hpp:10-49. The `unordered_map` is an association list with unique
keys. -/
structure Header (L : Type) where
  labels : List L
  indices : FlatMap L Nat
  deriving DecidableEq, Repr

namespace Header

variable {L : Type} [DecidableEq L]

/-- The constructor from a size, data_header.hpp:13; `dl` is `L()`. -/
def new (dl : L) (n : Nat) : Header L := ⟨List.replicate n dl, []⟩

/-- The constructors from labels, data_header.hpp:14-15. -/
def ofLabels (ls : List L) : Header L := ⟨ls, []⟩

/-- `size`, data_header.hpp:27. -/
def size (h : Header L) : Nat := h.labels.length

/-- `find`, data_header.hpp:29-32; `none` is `no_index`. -/
def find (label : L) (h : Header L) : Res (Option Nat) :=
  match FlatMap.find label h.indices with
  | none => .ok none
  | some k => match h.indices[k]? with
    | some e => .ok (some e.2)
    | none => .ub

/-- `add`, data_header.hpp:18-22. -/
def add (label : L) (h : Header L) : Res (Nat × Header L) := do
  let i ← h.find label
  if i = none then
    let ls := h.labels ++ [label]
    .ok (ls.length - 1, ⟨ls, h.indices.assign 0 label (ls.length - 1)⟩)
  else .throws .assertion

/-- `resize`, data_header.hpp:24. -/
def resize (dl : L) (s : Nat) (h : Header L) : Res (Header L) :=
  if s ≥ h.size then .ok { h with labels := vresize h.labels s dl } else .throws .assertion

/-- `clear`, data_header.hpp:25. -/
def clear : Header L := ⟨[], []⟩

/-- `operator[]`, data_header.hpp:34. -/
def get (idx : Nat) (h : Header L) : Res L := vget h.labels idx

/-- `set`, data_header.hpp:36-41. -/
def set (idx : Nat) (label : L) (h : Header L) : Res (Nat × Header L) := do
  let i ← h.find label
  if idx < h.size ∧ i = none then
    let ls ← vset h.labels idx label
    .ok (idx, ⟨ls, h.indices.assign 0 label (ls.length - 1)⟩)
  else .throws .assertion

/-- How `storage::add_channel`, `table::add_column` and `circular_frame_buffer::add_channel` use a header
(/repo/flut/storage.hpp:20 and 112): grow by one, then label the last channel. -/
def append (dl : L) (label : L) (h : Header L) : Res (Header L) := do
  let h ← h.resize dl (h.size + 1)
  let (_, h) ← h.set (h.size - 1) label
  .ok h

/-- Operations that change a header. -/
inductive Op (L : Type) where
  | add (label : L)
  | append (label : L)
  | resize (s : Nat)
  | clear

/-- One operation. -/
def run (dl : L) : Op L → Header L → Res (Header L)
  | .add l, h => do
    let (_, h) ← h.add l
    .ok h
  | .append l, h => h.append dl l
  | .resize s, h => h.resize dl s
  | .clear, _ => .ok .clear

/-- A history of operations; the first exception ends it. -/
def runAll (dl : L) : List (Op L) → Header L → Res (Header L)
  | [], h => .ok h
  | op :: ops, h => do
    let h ← run dl op h
    runAll dl ops h

end Header

/-! ### `storage` -/

/-- `storage<T,L>`, /repo/flut/storage.hpp:125-128. -/
structure Storage (α L : Type) where
  frames : Nat
  labels : Header L
  data : List α
  deriving DecidableEq, Repr

namespace Storage

variable {α L : Type} [DecidableEq L]

/-- The constructor, storage.hpp:16. -/
def new (dl : L) (frames channels : Nat) (value : α) : Storage α L :=
  ⟨frames, .new dl channels, List.replicate (channels * frames) value⟩

/-- `channel_size`, storage.hpp:58. -/
def channels (s : Storage α L) : Nat := s.labels.size

/-- The inner loop of storage.hpp:106-107, with `n` channels to go from `ci`. -/
def copyChannels (old : List α) (och nch fi : Nat) : Nat → Nat → List α → Res (List α)
  | 0, _, d => .ok d
  | n + 1, ci, d => do
    let x ← vget old (och * fi + ci)
    let d ← vset d (nch * fi + ci) x
    copyChannels old och nch fi n (ci + 1) d

/-- The outer loop of storage.hpp:105, with `n` frames to go from `fi`. -/
def copyFrames (old : List α) (och nch : Nat) : Nat → Nat → List α → Res (List α)
  | 0, _, d => .ok d
  | n + 1, fi, d => do
    let d ← copyChannels old och nch fi och 0 d
    copyFrames old och nch n (fi + 1) d

/-- The data after adding channels, storage.hpp:102-110. -/
def widen (nframes nchannels : Nat) (value : α) (s : Storage α L) : Res (List α) :=
  if s.frames > 1 then
    copyFrames s.data s.channels nchannels s.frames 0 (List.replicate (nchannels * nframes) value)
  else .ok (vresize s.data (nframes * nchannels) value)

/-- `resize`, storage.hpp:99-120. -/
def resize (dl : L) (nframes nchannels : Nat) (value : α) (s : Storage α L) : Res (Storage α L) :=
  if nframes < s.frames ∨ nchannels < s.channels then .throws .flutError
  else if nchannels > s.channels then do
    let d ← s.widen nframes nchannels value
    let ls ← s.labels.resize dl nchannels
    .ok ⟨nframes, ls, d⟩
  else .ok { s with frames := nframes, data := vresize s.data (nframes * nchannels) value }

/-- `add_channel( label, value )`, storage.hpp:20: the storage that the call leaves behind, and its outcome. (If
`labels_.set` throws, the storage has been resized already.) -/
def addChannel (dl : L) (label : L) (value : α) (s : Storage α L) : Storage α L × Res Nat :=
  match s.resize dl s.frames (s.channels + 1) value with
  | .ok s => match s.labels.set (s.channels - 1) label with
    | .ok (i, ls) => ({ s with labels := ls }, .ok i)
    | .throws e => (s, .throws e)
    | .ub => (s, .ub)
    | .diverges => (s, .diverges)
  | .throws e => (s, .throws e)
  | .ub => (s, .ub)
  | .diverges => (s, .diverges)

/-- `operator()( frame, channel )`, storage.hpp:77. -/
def get (frame channel : Nat) (s : Storage α L) : Res α := vget s.data (frame * s.channels + channel)

/-- `sto( frame, channel ) = x`, storage.hpp:76. -/
def put (frame channel : Nat) (x : α) (s : Storage α L) : Res (Storage α L) := do
  let d ← vset s.data (frame * s.channels + channel) x
  .ok { s with data := d }

/-- The loop of storage.hpp:27. -/
def putColumn (cidx : Nat) : Nat → List α → Storage α L → Res (Storage α L)
  | _, [], s => .ok s
  | fidx, x :: xs, s => do
    let s ← s.put fidx cidx x
    putColumn cidx (fidx + 1) xs s

/-- `add_channel( label, data )`, storage.hpp:23-29; `dv` is `T()`. -/
def addChannelData (dl : L) (dv : α) (label : L) (xs : List α) (s : Storage α L) : Res (Storage α L) := do
  let s ← s.resize dl (max s.frames xs.length) (s.channels + 1) dv
  let (_, ls) ← s.labels.set (s.channels - 1) label
  let s := { s with labels := ls }
  putColumn (s.channels - 1) 0 xs s

/-- `find_channel`, storage.hpp:32. -/
def findChannel (label : L) (s : Storage α L) : Res (Option Nat) := s.labels.find label

/-- `find_or_add_channel`, storage.hpp:35-38. -/
def findOrAddChannel (dl : L) (label : L) (value : α) (s : Storage α L) : Res (Nat × Storage α L) := do
  match ← s.findChannel label with
  | some i => .ok (i, s)
  | none =>
    let (s, r) := s.addChannel dl label value
    let i ← r
    .ok (i, s)

/-- `add_frame( value )`, storage.hpp:47. -/
def addFrame (value : α) (s : Storage α L) : Storage α L :=
  { s with data := vresize s.data (s.data.length + s.channels) value, frames := s.frames + 1 }

/-- `add_frame( data )`, storage.hpp:50-55. Copying into the last `channel_size()` places of the vector is keeping what is
before them. -/
def addFrameData (dv : α) (xs : List α) (s : Storage α L) : Res (Storage α L) :=
  if xs.length = s.channels then
    let d := vresize s.data (s.data.length + s.channels) dv
    .ok { s with data := d.take (d.length - s.channels) ++ xs, frames := s.frames + 1 }
  else .throws .assertion

/-- `empty`, storage.hpp:64. -/
def empty (s : Storage α L) : Bool := s.data.isEmpty

/-- `clear`, storage.hpp:67. -/
def clear : Storage α L := ⟨0, .clear, []⟩

/-- `at` const, storage.hpp:72-73. -/
def at' (frame channel : Nat) (s : Storage α L) : Res α :=
  if frame < s.frames ∧ channel < s.channels then vget s.data (frame * s.channels + channel) else .throws .assertion

/-- `sto.at( frame, channel ) = x`, storage.hpp:70-71. -/
def putAt (frame channel : Nat) (x : α) (s : Storage α L) : Res (Storage α L) :=
  if frame < s.frames ∧ channel < s.channels then s.put frame channel x else .throws .assertion

/-- `sto[ channel ]`, storage.hpp:80; undefined if there is data but no frame (which cannot happen). -/
def last (channel : Nat) (s : Storage α L) : Res α :=
  if s.data.isEmpty then .throws .assertion
  else if s.frames = 0 then .ub
  else s.get (s.frames - 1) channel

/-- `sto[ channel ] = x`, storage.hpp:80. -/
def putLast (channel : Nat) (x : α) (s : Storage α L) : Res (Storage α L) :=
  if s.data.isEmpty then .throws .assertion
  else if s.frames = 0 then .ub
  else s.put (s.frames - 1) channel x

/-- `sto[ label ] = x`, storage.hpp:84. -/
def putLabel (dl : L) (dv : α) (label : L) (x : α) (s : Storage α L) : Res (Storage α L) := do
  let (i, s) ← s.findOrAddChannel dl label dv
  s.putLast i x

/-- Operations that change a storage. -/
inductive Op (α L : Type) where
  | addChannel (label : L) (value : α)
  | addChannelData (label : L) (xs : List α)
  | addFrame (value : α)
  | addFrameData (xs : List α)
  | resize (nframes nchannels : Nat) (value : α)
  | put (frame channel : Nat) (x : α)
  | clear

/-- One operation; `dl` and `dv` are `L()` and `T()`. -/
def run (dl : L) (dv : α) : Op α L → Storage α L → Res (Storage α L)
  | .addChannel l v, s => do
    let (s, r) := s.addChannel dl l v
    let _ ← r
    .ok s
  | .addChannelData l xs, s => s.addChannelData dl dv l xs
  | .addFrame v, s => .ok (s.addFrame v)
  | .addFrameData xs, s => s.addFrameData dv xs
  | .resize nf nc v, s => s.resize dl nf nc v
  | .put f c x, s => s.putAt f c x
  | .clear, _ => .ok .clear

/-- A history of operations; the first exception ends it. -/
def runAll (dl : L) (dv : α) : List (Op α L) → Storage α L → Res (Storage α L)
  | [], s => .ok s
  | op :: ops, s => do
    let s ← run dl dv op s
    runAll dl dv ops s

end Storage

/-! ### `debug_storage` -/

/-- `auto_storage_writer::write`, /repo/flut/system/debug_storage.cpp:17-22. `dv` is never used: `storage_[ idx ]` has an
index, not a label. -/
def debugWrite {α L : Type} [DecidableEq α] [DecidableEq L] (dl : L) (sentinel : α) (label : L) (value : α)
    (s : Storage α L) : Res (Storage α L) := do
  let (idx, s) ← s.findOrAddChannel dl label sentinel
  let fresh ← if s.empty then .ok true else do
    let x ← s.last idx
    .ok (decide (x ≠ sentinel))
  let s := if fresh then s.addFrame sentinel else s
  s.putLast idx value

/-- A sequence of `write_debug( label, value )` calls, /repo/flut/system/debug_storage.cpp:34-37. -/
def debugWriteAll {α L : Type} [DecidableEq α] [DecidableEq L] (dl : L) (sentinel : α) :
    List (L × α) → Storage α L → Res (Storage α L)
  | [], s => .ok s
  | (l, v) :: ws, s => do
    let s ← debugWrite dl sentinel l v s
    debugWriteAll dl sentinel ws s

/-! ### `table` -/

/-- `table<T,L>`, /repo/flut/table.hpp:63-67. -/
structure Table (α L : Type) where
  rows : Header L
  cols : Header L
  data : List α
  deriving DecidableEq, Repr

namespace Table

variable {α L : Type} [DecidableEq L]

/-- The constructor, table.hpp:15. -/
def new (dl : L) (dv : α) (rows cols : Nat) : Table α L :=
  ⟨.new dl rows, .new dl cols, List.replicate (rows * cols) dv⟩

/-- The loops of table.hpp:44-46, visiting the cells `n - 1, ..., 0` in row-major order: cell `n` is row `n / cols`, column
`n % cols`. -/
def moveCells (dv : α) (orows ocols cols : Nat) : Nat → List α → Res (List α)
  | 0, d => .ok d
  | n + 1, d => do
    let ri := n / cols
    let ci := n % cols
    let x ← if ri < orows ∧ ci < ocols then vget d (ocols * ri + ci) else .ok dv
    let d ← vset d (cols * ri + ci) x
    moveCells dv orows ocols cols n d

/-- `resize`, table.hpp:39-49. -/
def resize (dl : L) (dv : α) (rows cols : Nat) (t : Table α L) : Res (Table α L) :=
  if rows < t.rows.size ∨ cols < t.cols.size then .throws .flutError
  else do
    let d ← moveCells dv t.rows.size t.cols.size cols (rows * cols) (vresize t.data (t.rows.size * cols) dv)
    let cl ← t.cols.resize dl cols
    let rl ← t.rows.resize dl rows
    .ok ⟨rl, cl, d⟩

/-- `add_row`, table.hpp:18-22. -/
def addRow (label : L) (value : α) (t : Table α L) : Res (Nat × Table α L) := do
  let (_, rl) ← t.rows.add label
  .ok (rl.size - 1, ⟨rl, t.cols, vresize t.data (rl.size * t.cols.size) value⟩)

/-- `add_column`, table.hpp:24-27. The default value is not used. -/
def addColumn (dl : L) (dv : α) (label : L) (_value : α) (t : Table α L) : Res (Nat × Table α L) := do
  let t ← t.resize dl dv t.rows.size (t.cols.size + 1)
  let (i, cl) ← t.cols.set (t.cols.size - 1) label
  .ok (i, { t with cols := cl })

/-- `get_or_add_row`, table.hpp:29-32. -/
def getOrAddRow (label : L) (value : α) (t : Table α L) : Res (Nat × Table α L) := do
  match ← t.rows.find label with
  | some i => .ok (i, t)
  | none => t.addRow label value

/-- `get_or_add_column`, table.hpp:34-37. -/
def getOrAddColumn (dl : L) (dv : α) (label : L) (value : α) (t : Table α L) : Res (Nat × Table α L) := do
  match ← t.cols.find label with
  | some i => .ok (i, t)
  | none => t.addColumn dl dv label value

/-- `operator()( row, col )` const, table.hpp:57. -/
def get (row col : Nat) (t : Table α L) : Res α :=
  if row < t.rows.size ∧ col < t.cols.size then vget t.data (row * t.cols.size + col) else .throws .assertion

/-- `t( row, col ) = x`, table.hpp:58. -/
def put (row col : Nat) (x : α) (t : Table α L) : Res (Table α L) :=
  if row < t.rows.size ∧ col < t.cols.size then do
    let d ← vset t.data (row * t.cols.size + col) x
    .ok { t with data := d }
  else .throws .assertion

/-- `t( rowLabel, colLabel ) = x`, table.hpp:61. The order in which the two arguments are evaluated is unspecified. -/
def putLabel (rowFirst : Bool) (dl : L) (dv : α) (row col : L) (x : α) (t : Table α L) : Res (Table α L) :=
  if rowFirst then do
    let (r, t) ← t.getOrAddRow row dv
    let (c, t) ← t.getOrAddColumn dl dv col dv
    t.put r c x
  else do
    let (c, t) ← t.getOrAddColumn dl dv col dv
    let (r, t) ← t.getOrAddRow row dv
    t.put r c x

/-- Operations that change a table. -/
inductive Op (α L : Type) where
  | addRow (label : L) (value : α)
  | addColumn (label : L) (value : α)
  | put (row col : Nat) (x : α)

/-- One operation. -/
def run (dl : L) (dv : α) : Op α L → Table α L → Res (Table α L)
  | .addRow l v, t => do
    let (_, t) ← t.addRow l v
    .ok t
  | .addColumn l v, t => do
    let (_, t) ← t.addColumn dl dv l v
    .ok t
  | .put r c x, t => t.put r c x

/-- A history of operations; the first exception ends it. -/
def runAll (dl : L) (dv : α) : List (Op α L) → Table α L → Res (Table α L)
  | [], t => .ok t
  | op :: ops, t => do
    let t ← run dl dv op t
    runAll dl dv ops t

end Table

/-! ### `circular_frame_buffer` -/

/-- Subtraction in `size_t` (64 bits). -/
def subWrap (a b : Nat) : Nat := (a + 2 ^ 64 - b) % 2 ^ 64

/-- `circular_frame_buffer<T,L>`, /repo/flut/buffer/circular_frame_buffer.hpp:79-82. -/
structure FrameBuf (α L : Type) where
  labels : Header L
  data : List α
  bufSize : Nat
  frames : Nat
  deriving DecidableEq, Repr

namespace FrameBuf

variable {α L : Type} [DecidableEq L]

/-- The constructor, circular_frame_buffer.hpp:12. -/
def new (dl : L) (dv : α) (channels frames : Nat) : FrameBuf α L :=
  ⟨.new dl channels, List.replicate (frames * channels) dv, frames, 0⟩

/-- `channel_size`, circular_frame_buffer.hpp:25. -/
def channels (b : FrameBuf α L) : Nat := b.labels.size

/-- `add_frame`, circular_frame_buffer.hpp:22. -/
def addFrame (b : FrameBuf α L) : Nat × FrameBuf α L := (b.frames + 1, { b with frames := b.frames + 1 })

/-- The place of a frame and channel in the vector, circular_frame_buffer.hpp:42 and 76. -/
def slot (frame channel : Nat) (b : FrameBuf α L) : Res Nat := do
  let f ← CDeque.modC frame b.bufSize
  .ok (f * b.channels + channel)

/-- `operator()`, circular_frame_buffer.hpp:42. -/
def get (frame channel : Nat) (b : FrameBuf α L) : Res α := do
  let i ← b.slot frame channel
  vget b.data i

/-- `buf( frame, channel ) = x`, circular_frame_buffer.hpp:42. -/
def put (frame channel : Nat) (x : α) (b : FrameBuf α L) : Res (FrameBuf α L) := do
  let i ← b.slot frame channel
  let d ← vset b.data i x
  .ok { b with data := d }

/-- `operator[]`, circular_frame_buffer.hpp:46-47. -/
def last (channel : Nat) (b : FrameBuf α L) : Res α := b.get (subWrap b.frames 1) channel

/-- `buf[ channel ] = x`, circular_frame_buffer.hpp:46. -/
def putLast (channel : Nat) (x : α) (b : FrameBuf α L) : Res (FrameBuf α L) :=
  b.put (subWrap b.frames 1) channel x

/-- `reverse`, circular_frame_buffer.hpp:50-51. -/
def reverse (k channel : Nat) (b : FrameBuf α L) : Res α := b.get (subWrap (subWrap b.frames k) 1) channel

/-- `at`, circular_frame_buffer.hpp:54-61. -/
def at' (frame channel : Nat) (b : FrameBuf α L) : Res α :=
  if frame ≥ subWrap b.frames b.bufSize ∧ frame < b.frames ∧ channel < b.channels then b.get frame channel
  else .throws .assertion

/-- `resize_buffer( nframes, nchannels )`, circular_frame_buffer.hpp:64-68. -/
def resizeBuffer (dl : L) (nframes nchannels : Nat) (value : α) (b : FrameBuf α L) : Res (FrameBuf α L) := do
  let ls ← b.labels.resize dl nchannels
  .ok { b with data := List.replicate (nframes * nchannels) value, bufSize := nframes, labels := ls }

/-- `resize_buffer( nframes )`, circular_frame_buffer.hpp:70-73. -/
def resizeFrames (nframes : Nat) (value : α) (b : FrameBuf α L) : FrameBuf α L :=
  { b with data := List.replicate (nframes * b.channels) value, bufSize := nframes }

/-- `add_channel`, circular_frame_buffer.hpp:16. -/
def addChannel (dl : L) (dv : α) (label : L) (b : FrameBuf α L) : Res (Nat × FrameBuf α L) := do
  let b ← b.resizeBuffer dl b.frames (b.channels + 1) dv
  let (i, ls) ← b.labels.set (b.channels - 1) label
  .ok (i, { b with labels := ls })

/-- `get_label`, circular_frame_buffer.hpp:18. -/
def getLabel (channel : Nat) (b : FrameBuf α L) : Res L := b.labels.get channel

/-- `find_channel`, circular_frame_buffer.hpp:19. -/
def findChannel (label : L) (b : FrameBuf α L) : Res (Option Nat) := b.labels.find label

/-- `find_or_add_channel`, circular_frame_buffer.hpp:20. -/
def findOrAddChannel (dl : L) (dv : α) (label : L) (b : FrameBuf α L) : Res (Nat × FrameBuf α L) := do
  match ← b.findChannel label with
  | none => b.addChannel dl dv label
  | some i => .ok (i, b)

/-- `find_or_add_channel` for several labels in turn: the channels. -/
def channelsOf (dl : L) (dv : α) : List L → FrameBuf α L → Res (List Nat × FrameBuf α L)
  | [], b => .ok ([], b)
  | l :: ls, b => do
    let (i, b) ← b.findOrAddChannel dl dv l
    let (is, b) ← channelsOf dl dv ls b
    .ok (i :: is, b)

/-- Operations of a history of frames. -/
inductive Op (α : Type) where
  | addFrame
  | put (frame channel : Nat) (x : α)

/-- One operation. -/
def run : Op α → FrameBuf α L → Res (FrameBuf α L)
  | .addFrame, b => .ok b.addFrame.2
  | .put f c x, b => b.put f c x

/-- A history of operations. -/
def runAll : List (Op α) → FrameBuf α L → Res (FrameBuf α L)
  | [], b => .ok b
  | op :: ops, b => do
    let b ← run op b
    runAll ops b

end FrameBuf

end Flut
