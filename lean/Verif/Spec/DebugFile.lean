import Verif.Model.DebugFile
import Verif.Spec.DataText

/-! # Specification of the file of `write_debug` -/

namespace Flut.Spec

/-- What is written, in order. -/
def writes : List DebugCall → List (Str × Flt)
  | [] => []
  | .output _ :: cs => writes cs
  | .write l v :: cs => (l, v) :: writes cs

/-- The name given last, or `n`. -/
def lastName (n : Str) : List DebugCall → Str
  | [] => n
  | .output p :: cs => lastName p cs
  | .write _ _ :: cs => lastName n cs

/-- The labels, each where it was first used. -/
def debugHeader (ws : List (Str × Flt)) : List Str := (ws.map Prod.fst).eraseDups

/-- One more value: it belongs to the last frame, unless that has a value with the same label already. -/
def addToFrames (gs : List (List (Str × Flt))) (w : Str × Flt) : List (List (Str × Flt)) :=
  match gs.getLast? with
  | none => [[w]]
  | some g => if w.1 ∈ g.map Prod.fst then gs ++ [[w]] else gs.dropLast ++ [g ++ [w]]

/-- What is written, by frame. -/
def debugFrames (ws : List (Str × Flt)) : List (List (Str × Flt)) := ws.foldl addToFrames []

/-- The value a frame has for a label. -/
def frameValue (g : List (Str × Flt)) (l : Str) : Option Flt := (g.find? (·.1 = l)).map Prod.snd

end Flut.Spec
