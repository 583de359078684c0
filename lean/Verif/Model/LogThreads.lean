import Verif.Model.Threads
import Verif.Model.Log

/-!
# Logging from several threads

`flut/system/log.cpp`, `log_sink.hpp`. The global variables and the sinks are ordinary memory. `std::cout` may be used by several threads at the same time:
characters are not lost, but those of different threads may be mixed ([iostream.objects.overview] of the C++ standard). Any other stream is ordinary memory.
Sinks are taken to exist and to write to streams that do not fail.
-/

namespace Flut.Threads

/-- Where things are: the global variables (flut/system/log.cpp:11-12), the levels of sinks (flut/system/log_sink.hpp:22), the characters
that `std::cout` has been given, and those in the stream of a sink. -/
inductive LogPlace where
  | lowest
  | sinks
  | level (s : Nat)
  | console
  | stream (s : Nat)
deriving DecidableEq

/-- What is stored there. -/
inductive LogCell where
  | level (l : Nat)
  | sinks (l : List Nat)
  | text (t : Str)
deriving DecidableEq

/-- The memory is typed: a level is read from a place for levels. -/
def LogCell.asLevel : LogCell → Nat
  | .level l => l
  | _ => 0

/-- A list of sinks is read from the place of such a list. -/
def LogCell.asSinks : LogCell → List Nat
  | .sinks l => l
  | _ => []

/-- Text is read from a stream. -/
def LogCell.asText : LogCell → Str
  | .text t => t
  | _ => []

/-- Output to a stream goes behind what is there. -/
def LogCell.push (s : Str) (c : LogCell) : LogCell := .text (c.asText ++ s)

/-- Computations on these places. -/
abbrev LP (α : Type) := Prog LogPlace LogCell α

/-- `std::cout << ...`, character by character. -/
def coutP : Str → LP Unit
  | [] => .ret ()
  | c :: cs => .modify true .console (LogCell.push [c]) (coutP cs)

/-- `send_log_message` of `stream_sink` and `file_sink` (flut/system/log_sink.hpp:28,38-40). -/
def sendP (cout : Nat → Bool) (s : Nat) (msg : Str) : LP Unit :=
  if cout s then coutP (msg ++ [10]) else .modify false (.stream s) (LogCell.push (msg ++ [10])) (.ret ())

/-- `log_string` (flut/system/log.cpp:14-18) with `try_send_log_message` (flut/system/log_sink.hpp:16,19). -/
def logStringP (cout : Nat → Bool) (l : Nat) (msg : Str) : List Nat → LP Unit
  | [] => .ret ()
  | s :: ss => .read (.level s) fun v =>
    if v.asLevel ≤ l then (sendP cout s msg).bind fun _ => logStringP cout l msg ss else logStringP cout l msg ss

/-- `message` (flut/system/log.hpp:60), with the text that the arguments are streamed to. -/
def messageP (cout : Nat → Bool) (l : Nat) (msg : Str) : LP Unit :=
  .read .lowest fun v => if v.asLevel ≤ l then .read .sinks fun ss => logStringP cout l msg ss.asSinks else .ret ()

/-- The loop of `get_global_log_level` (flut/system/log.cpp:57-58). -/
def lowestLoopP : List Nat → LP Unit
  | [] => .ret ()
  | s :: ss => .read (.level s) fun v => .read .lowest fun low =>
    if v.asLevel < low.asLevel then .read (.level s) fun v => .write .lowest v (lowestLoopP ss) else lowestLoopP ss

/-- `get_global_log_level` (flut/system/log.cpp:54-60). -/
def getGlobalP : LP Nat :=
  .write .lowest (.level criticalLevel) (.read .sinks fun ss => (lowestLoopP ss.asSinks).bind fun _ => .read .lowest fun v => .ret v.asLevel)

/-- `add_sink` (flut/system/log.cpp:30-38). -/
def addSinkP (s : Nat) : LP Unit :=
  .read .sinks fun ss => if s ∈ ss.asSinks then .ret () else .write .sinks (.sinks (ss.asSinks ++ [s])) (getGlobalP.bind fun _ => .ret ())

/-- `remove_sink` (flut/system/log.cpp:40-45). -/
def removeSinkP (s : Nat) : LP Unit :=
  .read .sinks fun ss =>
    if s ∈ ss.asSinks then .write .sinks (.sinks (ss.asSinks.erase s)) (getGlobalP.bind fun _ => .ret ()) else getGlobalP.bind fun _ => .ret ()

/-- `sink::set_log_level` (flut/system/log_sink.hpp:17). -/
def setLevelP (s l : Nat) : LP Unit := .write (.level s) (.level l) (getGlobalP.bind fun _ => .ret ())

/-- The loop of `set_global_log_level` (flut/system/log.cpp:49-50). -/
def setGlobalLoopP (l : Nat) : List Nat → LP Unit
  | [] => .ret ()
  | s :: ss => (setLevelP s l).bind fun _ => setGlobalLoopP l ss

/-- `set_global_log_level` (flut/system/log.cpp:47-52). -/
def setGlobalP (l : Nat) : LP Unit := .read .sinks fun ss => (setGlobalLoopP l ss.asSinks).bind fun _ => .write .lowest (.level l) (.ret ())

/-- Calls. -/
inductive LogCall where
  /-- `message`, and `trace` to `critical` (flut/system/log.hpp:60-103) -/
  | message (l : Nat) (msg : Str)
  /-- `test_log_level` (flut/system/log.cpp:62-65) -/
  | testLevel (l : Nat)
  | getGlobal
  | setGlobal (l : Nat)
  | setLevel (s l : Nat)
  | add (s : Nat)
  | remove (s : Nat)
deriving DecidableEq

/-- What calls return. -/
inductive LogAns where
  | none
  | bool (b : Bool)
  | level (l : Nat)
deriving DecidableEq

/-- The accesses of a call; `cout` tells which sinks write to `std::cout`. -/
def LogCall.run (cout : Nat → Bool) : LogCall → LP LogAns
  | .message l msg => (messageP cout l msg).bind fun _ => .ret .none
  | .testLevel l => .read .lowest fun v => .ret (.bool (v.asLevel ≤ l))
  | .getGlobal => getGlobalP.bind fun l => .ret (.level l)
  | .setGlobal l => (setGlobalP l).bind fun _ => .ret .none
  | .setLevel s l => (setLevelP s l).bind fun _ => .ret .none
  | .add s => (addSinkP s).bind fun _ => .ret .none
  | .remove s => (removeSinkP s).bind fun _ => .ret .none

/-- A thread: one call after the other, each chosen with the answer to the one before. -/
inductive LogClient where
  | done
  | call (c : LogCall) (next : LogAns → LogClient)

/-- The accesses of a thread. Its result is the list of answers. -/
def LogClient.prog (cout : Nat → Bool) : LogClient → LP (List LogAns)
  | .done => .ret []
  | .call c next => (c.run cout).bind fun a => ((next a).prog cout).bind fun as => .ret (a :: as)

/-- The memory with a logger in it, and the text that was written before. -/
def logMem (g : Log) (console : Str) (stream : Nat → Str) : LogPlace → LogCell
  | .lowest => .level g.lowest
  | .sinks => .sinks g.sinks
  | .level s => .level ((g.objects s).getD 0)
  | .console => .text console
  | .stream s => .text (stream s)

end Flut.Threads
