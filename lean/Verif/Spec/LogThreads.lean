import Verif.Model.LogThreads
import Verif.Spec.Threads
import Verif.Spec.Log

/-! # Specification of logging from several threads -/

namespace Flut.Threads

/-- Logging a message, or asking whether a level is logged. -/
def LogCall.onlyLogs : LogCall → Bool
  | .message _ _ | .testLevel _ => true
  | _ => false

/-- The thread leaves sinks and levels alone. -/
def LogClient.OnlyLogs : LogClient → Prop
  | .done => True
  | .call c next => c.onlyLogs = true ∧ ∀ a, (next a).OnlyLogs

/-- The messages of such a thread, with their levels. What it logs may depend on what it was told about levels. -/
def LogClient.said (g : Log) : LogClient → List (Nat × Str)
  | .done => []
  | .call (.message l msg) next => (l, msg) :: (next .none).said g
  | .call (.testLevel l) next => (next (.bool (g.testLevel l))).said g
  | .call _ _ => []

/-- The answers to its calls. -/
def LogClient.answers (g : Log) : LogClient → List LogAns
  | .done => []
  | .call (.message _ _) next => .none :: (next .none).answers g
  | .call (.testLevel l) next => .bool (g.testLevel l) :: (next (.bool (g.testLevel l))).answers g
  | .call _ _ => []

/-- What messages should put on the console: a line for each sink there that receives them. -/
def consoleText (σ : SinkSpec) (cout : Nat → Bool) (said : List (Nat × Str)) : Str :=
  said.flatMap fun p => ((σ.receivers p.1).filter cout).flatMap fun _ => p.2 ++ [10]

/-- What messages should put into the stream of a sink: a line for each one that it receives. -/
def streamText (σ : SinkSpec) (s : Nat) (said : List (Nat × Str)) : Str :=
  said.flatMap fun p => if s ∈ σ.receivers p.1 then p.2 ++ [10] else []

/-- `text` consists of the characters of `part 0`, `part 1` and so on, each in their order: every character comes from a part, and those of part `i` make up
that part. -/
def Mix (part : Nat → Str) (text : Str) : Prop :=
  ∃ w : List (Nat × Byte), w.map (·.2) = text ∧ ∀ i, (w.filter (·.1 = i)).map (·.2) = part i

/-- The thread has made all its calls. -/
def Finished {L V α : Type} (s : Machine L V α) (i : Nat) : Prop := ∃ a, s.threads[i]? = some (.ret a)

/-- Calls that write the global level whatever it is. -/
def LogCall.setsGlobal : LogCall → Bool
  | .getGlobal | .setGlobal _ | .setLevel _ _ | .remove _ => true
  | _ => false

/-- The call of the model without threads that changes the state. -/
def LogCall.op : LogCall → Option Log.Op
  | .getGlobal => some .getGlobal
  | .setGlobal l => some (.setGlobal l)
  | .setLevel s l => some (.setLevel s l)
  | .add s => some (.add s)
  | .remove s => some (.remove s)
  | _ => none

end Flut.Threads
