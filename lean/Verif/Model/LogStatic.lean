import Verif.Model.LogNested

/-!
# Logging from objects with static storage

`global_sinks` (flut/system/log.cpp:12) is a vector with dynamic initialisation: it can be used only from the moment at which
`log.cpp` is initialised, until it is destroyed. In which order `log.cpp` and other source files are initialised is up to the
linker; objects are destroyed in the opposite order. `lowest_log_level` (flut/system/log.cpp:11) is a constant from the start and is
never destroyed.
-/

namespace Flut
namespace Log

/-- Whether `global_sinks` is not initialised yet, exists, or is destroyed already. -/
inductive Phase where
  | early
  | alive
  | late
deriving DecidableEq

/-- An object with static storage: what its constructor and its destructor do with the log. -/
structure StaticObject where
  ctor : List Act
  dtor : List Act

/-- The log and everything that was given to sinks so far. -/
structure Program where
  log : Log := {}
  sent : List Sent := []

/-- One call. Everything but a message that is dropped uses the vector (flut/system/log.cpp:14-65). -/
def useLog (ph : Phase) (st : Program) : Act → Res Program
  | .message l msg =>
    if st.log.testLevel l then
      if ph = .alive then do
        let ev ← st.log.logString l msg st.log.sinks
        .ok { st with sent := st.sent ++ ev }
      else .ub
    else .ok st
  | .op o => if ph = .alive then do
      let g ← st.log.run o
      .ok { st with log := g }
    else .ub

/-- Several calls. -/
def useAll (ph : Phase) : List Act → Program → Res Program
  | [], st => .ok st
  | a :: as, st => do
    let st ← useLog ph st a
    useAll ph as st

/-- A whole program: the static objects that are initialised before `log.cpp`, those that are initialised after it, and what
`main` does. -/
def wholeProgram (before after : List StaticObject) (main : List Act) : Res Program := do
  let st ← useAll .early (before.flatMap (·.ctor)) {}
  let st ← useAll .alive (after.flatMap (·.ctor)) st
  let st ← useAll .alive main st
  let st ← useAll .alive (after.reverse.flatMap (·.dtor)) st
  useAll .late (before.reverse.flatMap (·.dtor)) st

/-- A static sink (flut/system/log_sink.hpp:13-14). -/
def staticSink (s l : Nat) : StaticObject := ⟨[.op (.create s l)], [.op (.destroy s)]⟩

end Log
end Flut
