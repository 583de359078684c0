import Verif.Basic

/-! # Specifications for `char_stream`

These definitions do not refer to the model. -/

namespace Flut.Spec

/-- What becomes of a quoted part, given the bytes after the opening quote. -/
inductive QuoteScan where
  /-- the closing quote was met; these bytes follow it -/
  | closed (rest : Str)
  /-- the text ended before a closing quote -/
  | unclosed
  /-- the text ended with a backslash that escapes nothing -/
  | lone
  deriving DecidableEq

/-- Reading a quoted part: an escaped backslash or double quote does not count, everything else is
looked at byte by byte. -/
def scanQuote (quote : Byte) : Str → QuoteScan
  | [] => .unclosed
  | [c] => if c = quote then .closed [] else if c = 92 then .lone else .unclosed
  | c :: d :: cs =>
    if c = quote then .closed (d :: cs)
    else if c = 92 ∧ (d = 92 ∨ d = 34) then scanQuote quote cs
    else scanQuote quote (d :: cs)

/-- The token starting here has a quoted part that ends in a lone backslash at the end of the text. -/
inductive LoneBackslash (delims operators quotes : Str) : Str → Prop
  | here {c cs} : c ≠ 0 → c ∉ delims → c ∈ quotes → scanQuote c cs = .lone →
      LoneBackslash delims operators quotes (c :: cs)
  | later {c cs rest} : c ≠ 0 → c ∉ delims → c ∈ quotes → scanQuote c cs = .closed rest →
      LoneBackslash delims operators quotes rest → LoneBackslash delims operators quotes (c :: cs)
  | skip {c cs} : c ≠ 0 → c ∉ delims → c ∉ quotes → c ∉ operators →
      LoneBackslash delims operators quotes cs → LoneBackslash delims operators quotes (c :: cs)

end Flut.Spec

namespace Flut.Spec

/-- The value of a string of decimal digits. -/
def decValue (ds : Str) : Nat := ds.foldl (fun a d => a * 10 + (d.toNat - 48)) 0

/-- `ds` is a non-empty string of decimal digits. -/
def IsDigits (ds : Str) : Prop := ds ≠ [] ∧ ∀ d ∈ ds, 48 ≤ d.toNat ∧ d.toNat ≤ 57

instance (ds : Str) : Decidable (IsDigits ds) := inferInstanceAs (Decidable (_ ∧ ∀ d ∈ ds, _))

/-- `w` is a decimal numeral for `x`: digits with an optional sign. -/
inductive Numeral : Str → Int → Prop
  | pos {ds} : IsDigits ds → Numeral ds (decValue ds)
  | plus {ds} : IsDigits ds → Numeral (43 :: ds) (decValue ds)
  | minus {ds} : IsDigits ds → Numeral (45 :: ds) (-(decValue ds : Int))

/-- A text made of numerals for these integers, each followed by at least one delimiter except possibly the
last one. -/
inductive NumText (delims : Str) : Str → List Int → Prop
  | nil : NumText delims [] []
  | last {w x} : Numeral w x → NumText delims w [x]
  | cons {w sep rest x xs} : Numeral w x → sep ≠ [] → (∀ d ∈ sep, d ∈ delims) → NumText delims rest xs →
      NumText delims (w ++ sep ++ rest) (x :: xs)

end Flut.Spec
