import Verif.Model.CharStream

/-!
# The memory that a `char_stream` reads from

`Model/CharStream.lean` has the text of a stream as part of its state. In the code a `char_stream` has pointers into a buffer, which is that of the
caller or that of a `string` in the stream. Copying a stream copies the pointers: there is no copy constructor in the class, and none that moves,
because the destructor is declared (flut/char_stream.hpp:32).
-/

namespace Flut

/-- What a call returns. -/
inductive StreamAns where
  | text (s : Str)
  | num (i : Int)
  | char (c : Byte)
  deriving DecidableEq

/-- One call (the state after it is that of `StreamOp.run`). `getc` is made only while `good()` holds. -/
def StreamOp.ask (bits : Nat) : StreamOp → CharStream → Res (StreamAns × CharStream)
  | .token o q, s => do let r ← s.getToken o q; .ok (.text r.1, r.2)
  | .line, s => .ok (.text s.getLine.1, s.getLine.2)
  | .str, s => do let r ← s.readStr; .ok (.text r.1, r.2)
  | .long, s => .ok (.num (s.readLong bits).1, (s.readLong bits).2)
  | .getc, s => if s.good then do let r ← s.getc; .ok (.char r.1, r.2) else .ok (.char 0, s)
  | .peekc, s => .ok (.char s.peekc, s)

/-- A `char_stream` in memory (flut/char_stream.hpp:64-73). `own` is the block of `str_buffer`, `buf` the block that `buffer` points to; `len` is
`buffer_end - buffer` and `pos` is `cur_pos - buffer`. `cur_pos_end` is set before it is used in each call. The delimiters are taken to be
a literal. -/
structure StreamObj where
  own : Nat
  buf : Nat
  len : Nat
  pos : Nat
  delims : Str
  fail : Bool
  eof : Bool

/-- The memory: blocks of characters (`none` before they are allocated and after they are freed), the buffers of the caller and the streams by name, and the
number of blocks that have been allocated. -/
structure StreamMem where
  next : Nat
  block : Nat → Option Str
  buffer : Nat → Option Nat
  stream : Nat → Option StreamObj

namespace StreamMem

/-- No buffers and no streams. -/
def empty : StreamMem := ⟨0, fun _ => none, fun _ => none, fun _ => none⟩

/-- Allocate a block. -/
def alloc (text : Str) (m : StreamMem) : StreamMem :=
  { m with next := m.next + 1, block := fun b => if b = m.next then some text else m.block b }

/-- Free a block. -/
def free (b : Nat) (m : StreamMem) : StreamMem := { m with block := fun b' => if b' = b then none else m.block b' }

/-- Set or remove a stream. -/
def put (s : Nat) (o : Option StreamObj) (m : StreamMem) : StreamMem := { m with stream := fun s' => if s' = s then o else m.stream s' }

/-- The state of a stream as `Model/CharStream.lean` has it: what its pointers point to. -/
def view (m : StreamMem) (o : StreamObj) : Res CharStream :=
  match m.block o.buf with
  | none => .ub
  | some t => .ok { rest := (t.take o.len).drop o.pos, delims := o.delims, fail := o.fail, eof := o.eof }

/-- The stream after a call that has left the state `c`. -/
def _root_.Flut.StreamObj.after (o : StreamObj) (c : CharStream) : StreamObj := { o with pos := o.len - c.rest.length, fail := c.fail, eof := c.eof }

/-- What a program does with streams. -/
inductive Op where
  /-- The caller makes a buffer. -/
  | buffer (b : Nat) (text : Str)
  /-- The caller frees it, or changes the string it belongs to. -/
  | free (b : Nat)
  /-- `char_stream s( b, delims )` -/
  | fromBuffer (s b : Nat) (delims : Str)
  /-- `char_stream s( string( text ), delims )` -/
  | fromString (s : Nat) (text delims : Str)
  /-- `char_stream s( t )` -/
  | copy (s t : Nat)
  /-- `s = t` -/
  | assign (s t : Nat)
  /-- The destructor of `s`. -/
  | destroy (s : Nat)
  /-- A call of `s`. -/
  | read (s : Nat) (op : StreamOp)

/-- One step, with what it returns. Using a name that does not exist, or making one twice, is no program: it is `ub` here. -/
def step (bits : Nat) : Op → StreamMem → Res (Option StreamAns × StreamMem)
  | .buffer b text, m => match m.buffer b with
    | some _ => .ub
    | none => .ok (none, { m.alloc text with buffer := fun b' => if b' = b then some m.next else m.buffer b' })
  | .free b, m => match m.buffer b with
    | none => .ub
    | some k => .ok (none, { m.free k with buffer := fun b' => if b' = b then none else m.buffer b' })
  -- flut/char_stream.cpp:9-12; `str_buffer` is empty
  | .fromBuffer s b delims, m => match m.stream s, m.buffer b with
    | none, some k => match m.block k with
      | none => .ub
      | some t =>
        let c := CharStream.ofCStr t delims
        let o : StreamObj := ⟨m.next, k, (cstr t).length, 0, delims, false, false⟩
        .ok (none, (m.alloc []).put s (some (o.after c)))
    | _, _ => .ub
  -- flut/char_stream.cpp:14-17
  | .fromString s text delims, m => match m.stream s with
    | some _ => .ub
    | none =>
      let c := CharStream.ofString text delims
      let o : StreamObj := ⟨m.next, m.next, text.length, 0, delims, false, false⟩
      .ok (none, (m.alloc text).put s (some (o.after c)))
  -- the copy constructor the compiler makes: `str_buffer` is copied to a block of its own, and the pointers are copied
  | .copy s t, m => match m.stream s, m.stream t with
    | none, some o => match m.block o.own with
      | none => .ub
      | some text => .ok (none, (m.alloc text).put s (some { o with own := m.next }))
    | _, _ => .ub
  -- the assignment the compiler makes. Assigning to a `std::string` invalidates the pointers into it ([string.require] of the C++ standard), so it is
  -- modelled as a new block; that of a string to itself does nothing in libstdc++
  | .assign s t, m => match m.stream s, m.stream t with
    | some p, some o =>
      if s = t then .ok (none, m)
      else match m.block o.own with
        | none => .ub
        | some text => .ok (none, ((m.free p.own).alloc text).put s (some { o with own := m.next }))
    | _, _ => .ub
  | .destroy s, m => match m.stream s with
    | none => .ub
    | some p => .ok (none, (m.free p.own).put s none)
  | .read s op, m => match m.stream s with
    | none => .ub
    | some o => do
      let c ← m.view o
      let (a, c') ← op.ask bits c
      .ok (some a, m.put s (some (o.after c')))

/-- A program: what the calls return. -/
def run (bits : Nat) : List Op → StreamMem → Res (List StreamAns × StreamMem)
  | [], m => .ok ([], m)
  | op :: ops, m => do
    let (a, m') ← step bits op m
    let (as, m'') ← run bits ops m'
    .ok (a.toList ++ as, m'')

end StreamMem

end Flut
