import Verif.Model.Log

/-!
# Sinks that use the log while they receive a message

`send_log_message` is virtual (flut/system/log_sink.hpp:15), so a sink can log, change levels, and create or destroy sinks while
`log_string` (flut/system/log.cpp:14-18) walks over `global_sinks`. What a sink does may depend on everything that was sent so far.
A change of the vector makes the iterators of every walk under way invalid, so that going on with them is undefined: `push_back`
always invalidates `end()`, and `erase` what follows. The first argument of `act` bounds the depth of messages within messages;
`Res.diverges` says that it was not enough.
-/

namespace Flut
namespace Log

/-- A message that was given to a sink: the sink, the level and the text. -/
abbrev Sent := Nat × Nat × Str

/-- What a program, or a sink in its `send_log_message`, can do with the log. -/
inductive Act where
  | message (l : Nat) (msg : Str)
  | op (o : Op)

/-- What the sinks do: given what was sent so far, including the message itself, the sink, the level and the text. -/
abbrev Behaviour := List Sent → Nat → Nat → Str → List Act

/-- The log, everything that was given to sinks so far, and the number of changes of the vector `global_sinks`. -/
structure Nest where
  log : Log := {}
  sent : List Sent := []
  changes : Nat := 0

/-- The loop of `log_string` (flut/system/log.cpp:16-17) with `try_send_log_message` (flut/system/log_sink.hpp:16). `within` is
what the calls in `send_log_message` do. -/
def walk (within : List Act → Nest → Res Nest) (b : Behaviour) (l : Nat) (msg : Str) : List Nat → Nest → Res Nest
  | [], st => .ok st
  | s :: ss, st => do
    let own ← st.log.levelOf s
    if own ≤ l then
      let sent := st.sent ++ [(s, l, msg)]
      let st' ← within (b sent s l msg) { st with sent := sent }
      if st'.changes = st.changes then walk within b l msg ss st' else .ub
    else walk within b l msg ss st

/-- One call after the other. -/
def acts (one : Act → Nest → Res Nest) : List Act → Nest → Res Nest
  | [], st => .ok st
  | a :: as, st => do
    let st ← one a st
    acts one as st

/-- One call: `message` (flut/system/log.hpp:60), or a call that changes the state. -/
def act (b : Behaviour) : Nat → Act → Nest → Res Nest
  | 0, _, _ => .diverges
  | n + 1, .message l msg, st => if st.log.testLevel l then walk (acts (act b n)) b l msg st.log.sinks st else .ok st
  | _ + 1, .op o, st => do
    let g ← st.log.run o
    .ok { st with log := g, changes := st.changes + if g.sinks = st.log.sinks then 0 else 1 }

end Log
end Flut
