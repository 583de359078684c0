import Verif.Spec.PropText

/-! # A grammar of hand-written prop documents

The trees of the model are used, but none of its functions. -/

namespace Flut.Spec

/-- Text without the white space at its ends. -/
def strip (s : Str) : Str :=
  ((s.dropWhile fun c => decide (IsSpace c)).reverse.dropWhile fun c => decide (IsSpace c)).reverse

/-- A blank: a space or a form feed. -/
def IsBlank (c : Byte) : Prop := c = 32 ∨ c = 12

instance (c : Byte) : Decidable (IsBlank c) := inferInstanceAs (Decidable (_ ∨ _))

/-- The characters that separate tokens: line ends, tabs, vertical tabs and semicolons. -/
def IsSeparator (c : Byte) : Prop := c = 10 ∨ c = 13 ∨ c = 9 ∨ c = 11 ∨ c = 59

instance (c : Byte) : Decidable (IsSeparator c) := inferInstanceAs (Decidable (_ ∨ _))

/-- Characters of an unquoted word: no separator, none of `= { } %`, no quote, no NUL. Blanks are allowed. -/
def IsWordChar (c : Byte) : Prop :=
  c ≠ 0 ∧ ¬ IsSeparator c ∧ c ≠ 61 ∧ c ≠ 123 ∧ c ≠ 125 ∧ c ≠ 37 ∧ c ≠ 34 ∧ c ≠ 39

instance (c : Byte) : Decidable (IsWordChar c) := inferInstanceAs (Decidable (_ ∧ _))

/-- What may stand between two tokens: a separator, or a comment to the end of its line. -/
inductive Gap where
  | sep (c : Byte)
  | comment (w : Str) (lineEnd : Byte)

/-- The text of a gap. -/
def Gap.text : Gap → Str
  | .sep c => [c]
  | .comment w e => b!"%" ++ w ++ [e]

/-- The text of a comment: one line, with something other than tabs and semicolons in it. -/
def IsComment (w : Str) : Prop := (∀ c ∈ w, c ≠ 0 ∧ c ≠ 13 ∧ c ≠ 10) ∧ ∃ c ∈ w, c ≠ 9 ∧ c ≠ 11 ∧ c ≠ 59

instance (w : Str) : Decidable (IsComment w) :=
  inferInstanceAs (Decidable ((∀ c ∈ w, c ≠ 0 ∧ c ≠ 13 ∧ c ≠ 10) ∧ ∃ c ∈ w, c ≠ 9 ∧ c ≠ 11 ∧ c ≠ 59))

/-- A gap as it may be written. -/
def Gap.Valid : Gap → Prop
  | .sep c => IsSeparator c
  | .comment w e => IsComment w ∧ (e = 10 ∨ e = 13)

instance (g : Gap) : Decidable g.Valid := by
  cases g <;> simp only [Gap.Valid] <;> infer_instance

/-- The text of a list of gaps. -/
def gapsText (g : List Gap) : Str := g.flatMap Gap.text

/-- A character between quotes: written as it is, or one of the escapes backslash-backslash, backslash-quote,
`\n`, `\r`, `\t`. -/
inductive QuotedChar where
  | raw (c : Byte)
  | backslash
  | quote
  | newline
  | ret
  | tab
  deriving DecidableEq

/-- How the character is written. -/
def QuotedChar.text : QuotedChar → Str
  | .raw c => [c]
  | .backslash => [92, 92]
  | .quote => [92, 34]
  | .newline => [92, 110]
  | .ret => [92, 114]
  | .tab => [92, 116]

/-- The character it stands for. -/
def QuotedChar.char : QuotedChar → Byte
  | .raw c => c
  | .backslash => 92
  | .quote => 34
  | .newline => 10
  | .ret => 13
  | .tab => 9

/-- A key or a value: bare text, or text between two quotes `q`, with blanks on either side. -/
inductive Word where
  | bare (before body after : Str)
  | quoted (before : Str) (q : Byte) (body : List QuotedChar) (after : Str)

/-- How the word is written. -/
def Word.text : Word → Str
  | .bare a w b => a ++ w ++ b
  | .quoted a q w b => a ++ [q] ++ w.flatMap QuotedChar.text ++ [q] ++ b

/-- What the word says: the blanks around it do not count, and neither does white space just inside the quotes. -/
def Word.says : Word → Str
  | .bare _ w _ => w
  | .quoted _ _ w _ => strip (w.map QuotedChar.char)

/-- A word as it may be written. A bare word has no white space at its ends and may only be empty if there are
blanks in its place; a quoted word does not contain its own quote or a backslash unescaped, and is not just a
percent sign. -/
def Word.Valid : Word → Prop
  | .bare a w b => (∀ c ∈ a, IsBlank c) ∧ (∀ c ∈ w, IsWordChar c) ∧ Trimmed w ∧ (∀ c ∈ b, IsBlank c) ∧
      a ++ w ++ b ≠ []
  | .quoted a q w b => (∀ c ∈ a, IsBlank c) ∧ (q = 34 ∨ q = 39) ∧
      (∀ x ∈ w, ∀ c, x = .raw c → c ≠ 0 ∧ c ≠ q ∧ c ≠ 92) ∧ (∀ c ∈ b, IsBlank c) ∧
      w.map QuotedChar.char ++ b ≠ b!"%"

/-- A pair of quotes with nothing between or after them. -/
def Word.Nothing : Word → Prop
  | .bare _ _ _ => False
  | .quoted _ _ w b => w = [] ∧ b = []

/-- A word that can be a key: it starts with a letter. -/
def Word.IsKey (w : Word) : Prop := w.Valid ∧ ∃ c ∈ w.says.head?, IsLetter c

/-- An entry of a document: `key = value` or `key { entries }`, with gaps after each token. -/
inductive Entry where
  | pair (key : Word) (g1 g2 : List Gap) (val : Word) (g3 : List Gap)
  | group (key : Word) (g1 g2 : List Gap) (entries : List Entry) (g3 : List Gap)

mutual
/-- How an entry is written. -/
def Entry.text : Entry → Str
  | .pair k g1 g2 v g3 => k.text ++ gapsText g1 ++ b!"=" ++ gapsText g2 ++ v.text ++ gapsText g3
  | .group k g1 g2 es g3 => k.text ++ gapsText g1 ++ b!"{" ++ gapsText g2 ++ entriesText es ++ b!"}" ++ gapsText g3
/-- How a list of entries is written. -/
def entriesText : List Entry → Str
  | [] => []
  | e :: es => e.text ++ entriesText es
end

mutual
/-- The key and the node that an entry describes. -/
def Entry.node : Entry → Str × PN
  | .pair k _ _ v _ => (k.says, .mk false v.says [])
  | .group k _ _ es _ => (k.says, .mk false [] (entriesNodes es))
/-- The keys and nodes of a list of entries, in order. -/
def entriesNodes : List Entry → List (Str × PN)
  | [] => []
  | e :: es => e.node :: entriesNodes es
end

/-- A separator comes first. -/
def StartsWithSeparator (g : List Gap) : Prop := ∃ c, g.head? = some (.sep c)

mutual
/-- An entry as it may be written, where `last` says that it is the last one in its group or document. A value is
followed by a gap unless its entry is the last one; a value that is a bare pair of quotes by a separator. -/
def Entry.Valid (last : Prop) : Entry → Prop
  | .pair k g1 g2 v g3 => k.IsKey ∧ v.Valid ∧ (∀ g ∈ g1 ++ g2 ++ g3, g.Valid) ∧
      (g3 ≠ [] ∨ last) ∧ (v.Nothing → StartsWithSeparator g3)
  | .group k g1 g2 es g3 => k.IsKey ∧ entriesValid es ∧ (∀ g ∈ g1 ++ g2 ++ g3, g.Valid)
/-- A list of entries as it may be written. -/
def entriesValid : List Entry → Prop
  | [] => True
  | e :: es => Entry.Valid (es = []) e ∧ entriesValid es
end

/-- A document: gaps, entries, and perhaps a last comment without a line end. -/
structure Document where
  first : List Gap
  entries : List Entry
  lastComment : Option Str

/-- The text of a document. -/
def Document.text (d : Document) : Str :=
  gapsText d.first ++ entriesText d.entries ++ match d.lastComment with
    | none => []
    | some w => b!"%" ++ w

/-- The tree that a document describes. -/
def Document.tree (d : Document) : PN := .mk false [] (entriesNodes d.entries)

/-- A document as it may be written. If there is a last comment it counts as the gap after the last value, unless
that value is a bare pair of quotes. -/
def Document.Valid (d : Document) : Prop :=
  (∀ g ∈ d.first, g.Valid) ∧ entriesValid d.entries ∧ ∀ w, d.lastComment = some w → IsComment w

end Flut.Spec
