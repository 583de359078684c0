import Verif.Basic
import Mathlib.Logic.Function.Basic

/-!
# `flut/system/log.cpp`, `log.hpp`, `log_sink.hpp`, `test_framework.cpp`

Sinks are objects with an identity (their address, a number). `send_log_message` of a sink is taken not to create or
destroy sinks itself; what it is given is recorded.
`enum level` (flut/system/log.hpp:41) is a number: trace 1, debug 2, info 3, warning 4, error 5, critical 6, never 7.
-/

namespace Flut

/-- `critical_level` (flut/system/log.hpp:17,41). -/
def criticalLevel : Nat := 6

/-- `never_log_level` (flut/system/log.hpp:18,41). -/
def neverLevel : Nat := 7

/-- The global state (flut/system/log.cpp:11-12) and the levels of the sink objects that exist. -/
structure Log where
  /-- `log_level_` of each existing sink (flut/system/log_sink.hpp:22) -/
  objects : Nat → Option Nat := fun _ => none
  /-- `global_sinks` -/
  sinks : List Nat := []
  /-- `lowest_log_level` -/
  lowest : Nat := neverLevel

namespace Log

/-- `s->get_log_level()` (flut/system/log_sink.hpp:18); undefined if the sink does not exist. -/
def levelOf (g : Log) (s : Nat) : Res Nat :=
  match g.objects s with
  | some l => .ok l
  | none => .ub

/-- The loop of `get_global_log_level` (flut/system/log.cpp:57-58). -/
def lowestLoop (g : Log) : List Nat → Nat → Res Nat
  | [], low => .ok low
  | s :: ss, low => do
    let l ← g.levelOf s
    lowestLoop g ss (if l < low then l else low)

/-- `get_global_log_level` (flut/system/log.cpp:54-60). -/
def getGlobalLevel (g : Log) : Res (Nat × Log) := do
  let l ← lowestLoop g g.sinks criticalLevel
  .ok (l, { g with lowest := l })

/-- `add_sink` (flut/system/log.cpp:30-38). -/
def addSink (g : Log) (s : Nat) : Res Log :=
  if s ∈ g.sinks then .ok g
  else do
    let (_, g) ← ({ g with sinks := g.sinks ++ [s] } : Log).getGlobalLevel
    .ok g

/-- `remove_sink` (flut/system/log.cpp:40-45). -/
def removeSink (g : Log) (s : Nat) : Res Log := do
  let (_, g) ← ({ g with sinks := g.sinks.erase s } : Log).getGlobalLevel
  .ok g

/-- `sink::sink` (flut/system/log_sink.hpp:13). The address must be free. -/
def create (g : Log) (s : Nat) (l : Nat) : Res Log :=
  match g.objects s with
  | some _ => .ub
  | none => addSink { g with objects := Function.update g.objects s (some l) } s

/-- `sink::~sink` (flut/system/log_sink.hpp:14). -/
def destroy (g : Log) (s : Nat) : Res Log :=
  match g.objects s with
  | none => .ub
  | some _ => do
    let g ← g.removeSink s
    .ok { g with objects := Function.update g.objects s none }

/-- `sink::set_log_level` (flut/system/log_sink.hpp:17). -/
def setLevel (g : Log) (s : Nat) (l : Nat) : Res Log :=
  match g.objects s with
  | none => .ub
  | some _ => do
    let (_, g) ← ({ g with objects := Function.update g.objects s (some l) } : Log).getGlobalLevel
    .ok g

/-- The loop of `set_global_log_level` (flut/system/log.cpp:49-50). -/
def setGlobalLoop (l : Nat) : List Nat → Log → Res Log
  | [], g => .ok g
  | s :: ss, g => do
    let g ← g.setLevel s l
    setGlobalLoop l ss g

/-- `set_global_log_level` (flut/system/log.cpp:47-52). -/
def setGlobalLevel (g : Log) (l : Nat) : Res Log := do
  let g ← setGlobalLoop l g.sinks g
  .ok { g with lowest := l }

/-- `test_log_level` (flut/system/log.cpp:62-65). -/
def testLevel (g : Log) (l : Nat) : Bool := g.lowest ≤ l

/-- `log_string` (flut/system/log.cpp:14-18) with `try_send_log_message` (flut/system/log_sink.hpp:16,19): what is sent,
to whom, in order. -/
def logString (g : Log) (l : Nat) (msg : Str) : List Nat → Res (List (Nat × Nat × Str))
  | [] => .ok []
  | s :: ss => do
    let own ← g.levelOf s
    let rest ← logString g l msg ss
    .ok (if own ≤ l then (s, l, msg) :: rest else rest)

/-- `message` (flut/system/log.hpp:60), with the text that the arguments are streamed to. -/
def message (g : Log) (l : Nat) (msg : Str) : Res (List (Nat × Nat × Str)) :=
  if g.testLevel l then g.logString l msg g.sinks else .ok []

/-- `messagef` / `log_vstring` (flut/system/log.hpp:61, flut/system/log.cpp:20-28), with the text that the format expands to:
`vsnprintf` keeps 1023 bytes of it, and the string made from the buffer ends at the first NUL. -/
def messagef (g : Log) (l : Nat) (expanded : Str) : Res (List (Nat × Nat × Str)) :=
  if g.testLevel l then g.logString l (cstr (expanded.take 1023)) g.sinks else .ok []

/-- The calls that change the state. -/
inductive Op where
  | create (s : Nat) (l : Nat)
  | destroy (s : Nat)
  | add (s : Nat)
  | remove (s : Nat)
  | setLevel (s : Nat) (l : Nat)
  | setGlobal (l : Nat)
  | getGlobal

/-- One call. Registering an object that does not exist is undefined as soon as it is used; here at once. -/
def run (g : Log) : Op → Res Log
  | .create s l => g.create s l
  | .destroy s => g.destroy s
  | .add s => match g.objects s with
    | none => .ub
    | some _ => g.addSink s
  | .remove s => g.removeSink s
  | .setLevel s l => g.setLevel s l
  | .setGlobal l => g.setGlobalLevel l
  | .getGlobal => do
    let (_, g) ← g.getGlobalLevel
    .ok g

/-- A history of calls. -/
def runAll : List Op → Log → Res Log
  | [], g => .ok g
  | op :: ops, g => do
    let g ← g.run op
    runAll ops g

end Log

/-! ## `test_framework` -/

/-- `test_framework` (flut/system/test_framework.hpp:20-22). Counters are taken not to reach `INT_MAX`. -/
structure TestFramework where
  tests : Nat := 0
  failed : Nat := 0
  passed : Nat := 0
deriving DecidableEq

namespace TestFramework

/-- `test` (flut/system/test_framework.cpp:14-31). -/
def test (t : TestFramework) (result : Bool) : Bool × TestFramework :=
  let t := { t with tests := t.tests + 1 }
  if result then (true, { t with passed := t.passed + 1 }) else (false, { t with failed := t.failed + 1 })

/-- `reset` (flut/system/test_framework.cpp:33-36): `num_tests = num_passed = num_failed`. -/
def reset (t : TestFramework) : TestFramework := { t with passed := t.failed, tests := t.failed }

/-- `report` (flut/system/test_framework.cpp:38-44). -/
def report (t : TestFramework) : Int := if t.failed > 0 then -1 else 0

/-- A sequence of tests. -/
def testAll (results : List Bool) (t : TestFramework) : TestFramework := results.foldl (fun t r => (t.test r).2) t

end TestFramework

end Flut
