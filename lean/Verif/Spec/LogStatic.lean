import Verif.Spec.Log
import Verif.Model.LogStatic

/-!
# Specification of logging from static objects: as if the log existed all the time
-/

namespace Flut

open Log

/-- What calls do if the log exists: who is registered, and what was sent to whom. -/
def SinkSpec.calls : List Act → SinkSpec × List Sent → Res (SinkSpec × List Sent)
  | [], x => .ok x
  | .message l msg :: as, (σ, ev) => calls as (σ, ev ++ (σ.receivers l).map fun s => (s, l, msg))
  | .op o :: as, (σ, ev) => do
    let σ ← σ.step o
    calls as (σ, ev)

/-- All calls of a program in their order: constructors, `main`, and destructors in the opposite order. -/
def inOrder (objects : List StaticObject) (main : List Act) : List Act :=
  objects.flatMap (·.ctor) ++ main ++ objects.reverse.flatMap (·.dtor)

/-- An object that only logs messages below the level critical. -/
def OnlyLogs (o : StaticObject) : Prop :=
  ∀ a ∈ o.ctor ++ o.dtor, ∃ l msg, a = .message l msg ∧ l < criticalLevel

/-- The program shows what is specified. -/
structure ProgramShows (p : Program) (x : SinkSpec × List Sent) : Prop where
  shows : LogShows p.log x.1
  sent : p.sent = x.2

end Flut
