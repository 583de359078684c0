import Verif.Model.Log

/-!
# What log sinks write: `flut/system/log_sink.hpp`

An output stream to a file keeps text in a buffer and hands it to the file when it likes to, at the latest when it is flushed. The
file may be one that cannot be opened, or its disk may have room for a number of bytes only. Every sink has a file of its own.
-/

namespace Flut

/-- `std::ofstream`: what is in the file, what is in the buffer, whether it is good, and how many bytes fit in the file (`none`: any
number). -/
structure OFile where
  disk : Str := []
  buf : Str := []
  good : Bool := true
  room : Option Nat := none
deriving DecidableEq

namespace OFile

/-- The stream hands the first `n` bytes of the buffer to the file; it goes bad if there is not room for all. -/
def drain (f : OFile) (n : Nat) : OFile :=
  let n := min n f.buf.length
  let w := match f.room with
    | none => n
    | some r => min n r
  { disk := f.disk ++ f.buf.take w, buf := f.buf.drop w, good := f.good && w == n, room := f.room.map (· - w) }

/-- One character is put into the stream, which may hand some of the buffer to the file. A stream that is not good ignores it. -/
def put (f : OFile) (c : Byte) (spill : Nat) : OFile :=
  if f.good then { f with buf := f.buf ++ [c] }.drain spill else f

/-- `stream << text`: all states of the file, the last one first. `spills` says when the buffer is handed over. -/
def write : Str → List Nat → List OFile → OFile → List OFile × OFile
  | [], _, tr, f => (tr, f)
  | c :: cs, spills, tr, f =>
    let g := f.put c (spills.headD 0)
    write cs spills.tail (g :: tr) g

/-- `flush()`. -/
def flush (f : OFile) : OFile := if f.good then f.drain f.buf.length else f

/-- `stream_sink::send_log_message` (flut/system/log_sink.hpp:29): the text, then `std::endl`, a newline and a flush. The states
passed through and the last one. -/
def streamSend (f : OFile) (msg : Str) (spills : List Nat) : List OFile × OFile :=
  let (tr, g) := write (msg ++ [10]) spills [f] f
  (g.flush :: tr, g.flush)

/-- `file_sink::send_log_message` (flut/system/log_sink.hpp:39-41). -/
def fileSend (f : OFile) (msg : Str) (spills : List Nat) : List OFile × OFile :=
  if f.good then
    let (tr, g) := f.streamSend msg spills
    (g.flush :: tr, g.flush)
  else ([f], f)

end OFile

/-- Where the file of a sink goes: whether it can be opened and how many bytes fit. -/
structure Place where
  opens : Bool := true
  room : Option Nat := none

/-- `file_stream_( file.str() )` (flut/system/log_sink.hpp:38): the file is emptied. -/
def Place.create (p : Place) : OFile := { good := p.opens, room := p.room }

/-- The logger and the files of its sinks. -/
structure LogWorld where
  log : Log := {}
  file : Nat → OFile

namespace LogWorld

/-- What a program does: calls that change the logger, and messages. -/
inductive Op where
  | call (op : Log.Op)
  | send (l : Nat) (msg : Str) (spills : Nat → List Nat)

/-- The calls of `send_log_message` that a message leads to (flut/system/log.cpp:14-18), all sinks being file sinks. -/
def deliver (spills : Nat → List Nat) : List (Nat × Nat × Str) → (Nat → OFile) → Nat → OFile
  | [], file => file
  | (s, _, msg) :: rest, file => deliver spills rest (Function.update file s ((file s).fileSend msg (spills s)).2)

/-- One step. A sink that is created opens its file (flut/system/log_sink.hpp:38). -/
def step (place : Nat → Place) (w : LogWorld) : Op → Res LogWorld
  | .call op => do
    let g ← w.log.run op
    .ok { log := g, file := match op with
      | .create s _ => Function.update w.file s (place s).create
      | _ => w.file }
  | .send l msg spills => do
    let calls ← w.log.message l msg
    .ok { w with file := deliver spills calls w.file }

/-- A history. -/
def run (place : Nat → Place) : List Op → LogWorld → Res LogWorld
  | [], w => .ok w
  | op :: ops, w => do
    let w ← w.step place op
    run place ops w

/-- The start of a program: no sinks; no file has anything in it. -/
def init : LogWorld := { file := fun _ => {} }

end LogWorld

end Flut
