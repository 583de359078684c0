import Verif.Spec.PropNode

/-! # Which documents an ini file can hold -/

namespace Flut.Spec

/-- The text stays on one line: no newline, return or NUL. -/
def OneLine (s : Str) : Prop := ∀ c ∈ s, c ≠ 10 ∧ c ≠ 13 ∧ c ≠ 0

/-- A key and a value that make a line of their own: the key has no `=`, does not start a comment, and the line does
not look like a group header. -/
structure IniItem (k v : Str) : Prop where
  key_line : OneLine k
  key_trim : Trimmed k
  key_eq : 61 ∉ k
  key_comment : k.head? ≠ some 35
  value_line : OneLine v
  value_trim : Trimmed v
  header : ¬ (k.head? = some 91 ∧ v.getLast? = some 93)

/-- A list of leaves with different keys that are proper items. -/
structure IniItems (cs : List (Str × PN)) : Prop where
  leaf : ∀ kn ∈ cs, kids kn.2 = []
  item : ∀ kn ∈ cs, IniItem kn.1 kn.2.value
  distinct : (cs.map Prod.fst).Nodup

/-- A group: a non-empty name on one line, no value of its own, and a non-empty list of items. -/
structure IniGroup (k : Str) (n : PN) : Prop where
  name : k ≠ []
  name_line : OneLine k
  no_value : n.value = []
  non_empty : kids n ≠ []
  items : IniItems (kids n)

/-- An ini document: items with values, followed by groups. -/
structure IniDoc (n : PN) (main groups : List (Str × PN)) : Prop where
  no_value : n.value = []
  parts : kids n = main ++ groups
  main_items : IniItems main
  main_value : ∀ kn ∈ main, kn.2.value ≠ []
  groups : ∀ kn ∈ groups, IniGroup kn.1 kn.2

end Flut.Spec
