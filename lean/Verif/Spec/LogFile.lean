import Verif.Spec.Log
import Verif.Model.LogFile

/-! # Specification: the lines a sink was sent -/

namespace Flut.Spec

/-- The sinks, and for each the messages it was sent since it was created. -/
structure Transcript where
  sinks : SinkSpec := SinkSpec.init
  lines : Nat → List Str := fun _ => []

/-- A message is noted for all that receive it. -/
def Transcript.step (t : Transcript) : LogWorld.Op → Res Transcript
  | .call (.create s l) => do
    let σ ← t.sinks.step (.create s l)
    .ok ⟨σ, fun s' => if s' = s then [] else t.lines s'⟩
  | .call op => do
    let σ ← t.sinks.step op
    .ok ⟨σ, t.lines⟩
  | .send l msg _ => .ok ⟨t.sinks, fun s => if s ∈ t.sinks.receivers l then t.lines s ++ [msg] else t.lines s⟩

/-- A history. -/
def Transcript.run : List LogWorld.Op → Transcript → Res Transcript
  | [], t => .ok t
  | op :: ops, t => do
    let t ← t.step op
    Transcript.run ops t

/-- Every line ends with a newline. -/
def textOf (lines : List Str) : Str := (lines.map (· ++ [10])).flatten

/-- As much of a text as a place takes. -/
def Fits (p : Place) (text : Str) : Str := if p.opens then (match p.room with | none => text | some r => text.take r) else []

end Flut.Spec
