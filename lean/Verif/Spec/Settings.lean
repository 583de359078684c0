import Verif.Spec.PropNode
import Verif.Spec.Float
import Verif.Spec.Text
import Verif.Spec.Ini

/-! # Settings: values of different types under delimited keys -/

namespace Flut.Spec

/-- A value of a type that programs store in their settings: `int`, `size_t`, `bool`, `float` or `double`, `string`. -/
inductive Setting where
  | int (x : Int)
  | size (n : Nat)
  | flag (b : Bool)
  | real (f : Fmt) (x : Flt)
  | text (s : Str)

/-- The value is one of its type. -/
def Setting.Fits : Setting → Prop
  | .int x => InRange 32 x
  | .size n => n < 2 ^ 64
  | .flag _ => True
  | .real f x => (f = .double ∨ f = .single) ∧ IsFloat f x
  | .text _ => True

/-- Two values of a floating-point type differ by at most one in the sixth decimal; infinities and NaN are the same. -/
inductive Close : Flt → Flt → Prop
  | fin {neg m y} : |y - m| ≤ 1 / 1000000 → Close (.fin neg m) (.fin neg y)
  | inf {neg} : Close (.inf neg) (.inf neg)
  | nan {neg} : Close (.nan neg) (.nan neg)

/-- The value that was written last under a path of keys. -/
def lastSetting (d : Byte) (path : List Str) : List (Str × Setting) → Option Setting
  | [] => none
  | (k, s) :: r => match lastSetting d path r with
    | some x => some x
    | none => if segments d k = path then some s else none

/-- No key is at the same time a setting and a group of settings. -/
def NoGroupIsValue (d : Byte) (ws : List (Str × Setting)) : Prop :=
  ∀ w ∈ ws, ∀ w' ∈ ws, segments d w.1 <+: segments d w'.1 → segments d w.1 = segments d w'.1

/-- A name that can be used for a group or a setting of an ini file. -/
structure IniName (k : Str) : Prop where
  non_empty : k ≠ []
  line : OneLine k
  trim : Trimmed k
  eq : 61 ∉ k
  comment : k.head? ≠ some 35
  header : k.head? ≠ some 91

end Flut.Spec
