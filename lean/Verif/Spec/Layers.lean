import Verif.Spec.Settings

/-! # Specification: which of several layers of settings decides -/

namespace Flut.Spec

/-- One of the settings is in the group, or is the setting, that the key begins with. -/
def Shares (d : Byte) (key : Str) (ws : List (Str × Setting)) : Prop := ∃ w ∈ ws, (segments d w.1).head? = (segments d key).head?

/-- The layer that decides about a key: the first one with a setting that shares its group. -/
inductive Decides (d : Byte) (key : Str) : List (List (Str × Setting)) → List (Str × Setting) → Prop
  | here {ws r} : Shares d key ws → Decides d key (ws :: r) ws
  | later {ws r ws'} : ¬ Shares d key ws → Decides d key r ws' → Decides d key (ws :: r) ws'

/-- The first of some optional values that is there. -/
def firstSome {α : Type} : List (Option α) → Option α
  | [] => none
  | some x :: _ => some x
  | none :: r => firstSome r

end Flut.Spec
