import Verif.Model.FileSystem
import Verif.Model.PropText
import Verif.Spec.PropText
import Verif.Spec.Ini

/-!
# What is left when saving stops half way

A process that saves a file can be stopped at any moment: by a crash, a kill or a full disk. What it has written by then is a
beginning of the text.
-/

namespace Flut.Spec

open Fs

/-- What a file system can look like if a process is stopped while it writes `text` to the file at `l`: nothing has happened yet,
or the file holds a beginning of the text (nothing at all, if it has only just been opened). -/
def Interrupted (before : Fs) (l : Loc) (text : Str) (after : Fs) : Prop :=
  after = before ∨ ∃ written, written <+: text ∧ after = before.put l (.file written)

/-- `CutWord written loaded saved`: what is loaded for a key or value of which only the beginning `written` of the text was saved.

* Without quotes, it is what was written.
* In quotes, all characters that were written completely are loaded. Blanks at the end are lost, and so is a lone percent sign.
* If the last thing written is a part of the three digits that stand for a control character, the last character loaded is a
  question mark or has code 1, 2 or 3. -/
def CutWord (written loaded saved : Str) : Prop :=
  (loaded = written ∧ written <+: saved) ∨
  (∃ p lost, p = loaded ++ lost ∧ p <+: saved ∧ ((∀ c ∈ lost, IsSpace c) ∨ p = b!"%") ∧
    (written = 34 :: p.flatMap quoteChar ∨ (p = saved ∧ written = quoted saved))) ∨
  ∃ p c d e, loaded = p ++ [c] ∧ p ++ [d] <+: saved ∧ written = 34 :: (p.flatMap quoteChar ++ e) ∧ e <+: quoteChar d ∧
    d.toNat < 32 ∧ (c = 63 ∨ (1 ≤ c.toNat ∧ c.toNat ≤ 3))

/-- `CutKids l u loaded saved`: from a beginning `u` of the text of the nodes `saved`, indented by `l` tabs, the nodes `loaded` are
recovered. Every node whose text is complete is recovered, then at most one more; that one has lost the end of its key, or the
end of its value, or some of its last children. -/
inductive CutKids : Nat → Str → List (Str × PN) → List (Str × PN) → Prop
  /-- the text of the first node is complete -/
  | whole {l u k n n' cs cs'} : SameTree n' n → CutKids l u cs' cs →
      CutKids l (writeNode true k l n ++ u) ((k, n') :: cs') ((k, n) :: cs)
  /-- there is only the indentation and at most one more character: nothing is recovered -/
  | stop {l u cs} : u.length ≤ l + 1 → CutKids l u [] cs
  /-- the cut is in the key or behind it: everything else of the node is missing -/
  | key {l u k k' n cs} : u.length ≤ l + (tryQuoted k).length → k' ≠ [] → CutWord (u.drop l) k' k →
      (u.length = l + (tryQuoted k).length → k' = k) → CutKids l u [(k', .mk false [] [])] ((k, n) :: cs)
  /-- the cut is in the value or before it; the value is complete if only the line break is missing -/
  | value {l u k v v' a cs} : l + (tryQuoted k).length < u.length → u.length < (writeNode true k l (.mk a v [])).length →
      CutWord (u.drop (l + (tryQuoted k).length + 3)) v' v →
      (u.length + 1 = (writeNode true k l (.mk a v [])).length → v' = v) →
      CutKids l u [(k, .mk false v' [])] ((k, .mk a v []) :: cs)
  /-- the cut is between the key and the closing brace: the children are those recovered from what follows the opening brace -/
  | group {l u k a ds ds' cs} : l + (tryQuoted k).length < u.length → u.length < (writeNode true k l (.mk a [] ds)).length →
      ds ≠ [] →
      CutKids (l + 1) (u.drop (2 * l + (tryQuoted k).length + 3)) ds' ds →
      CutKids l u [(k, .mk false [] ds')] ((k, .mk a [] ds) :: cs)

/-- The text of a list of ini items: a line with the key, an equals sign and the value for each. -/
def iniLines : List (Str × PN) → Str
  | [] => []
  | (k, n) :: cs => k ++ b!"=" ++ n.value ++ b!"\n" ++ iniLines cs

/-- `CutItems u loaded saved`: from a beginning `u` of the text of the ini items `saved`, the items `loaded` are recovered: all that
are complete, then at most one that has lost the end of its value. Blanks at the end of what is left of the value are lost too. -/
inductive CutItems : Str → List (Str × PN) → List (Str × PN) → Prop
  /-- nothing was written -/
  | stop {cs} : CutItems [] [] cs
  /-- the line of the first item is complete -/
  | whole {u k n n' cs cs'} : SameTree n' n → CutItems u cs' cs →
      CutItems (k ++ b!"=" ++ n.value ++ b!"\n" ++ u) ((k, n') :: cs') ((k, n) :: cs)
  /-- the cut is in the value of the first item, or right before or behind it -/
  | value {k v blanks n cs} : (∀ c ∈ blanks, IsSpace c) → v ++ blanks <+: n.value →
      CutItems (k ++ b!"=" ++ (v ++ blanks)) [(k, .mk false v [])] ((k, n) :: cs)

/-- `CutGroups u loaded saved`: from a beginning `u` of the text of the ini groups `saved`, the groups `loaded` are recovered: all
that are complete, then at most one that has lost some of its last items, or the end of its last item. -/
inductive CutGroups : Str → List (Str × PN) → List (Str × PN) → Prop
  /-- nothing was written -/
  | stop {gs} : CutGroups [] [] gs
  /-- the first group is complete -/
  | whole {u k n n' gs gs'} : SameTree n' n → CutGroups u gs' gs →
      CutGroups (b!"[" ++ k ++ b!"]\n" ++ iniLines (kids n) ++ u) ((k, n') :: gs') ((k, n) :: gs)
  /-- the cut is right behind the closing bracket of the name -/
  | name {k n gs} : CutGroups (b!"[" ++ k ++ b!"]") [(k, .mk false [] [])] ((k, n) :: gs)
  /-- the cut is in the items -/
  | items {u k n n' gs} : n'.value = [] → CutItems u (kids n') (kids n) →
      CutGroups (b!"[" ++ k ++ b!"]\n" ++ u) [(k, n')] ((k, n) :: gs)

/-- The same for a document with the items `main` before its groups: either the cut is in the items, or all of them are recovered
and it is in the groups. -/
def CutIni (u : Str) (loaded main groups : List (Str × PN)) : Prop :=
  CutItems u loaded main ∨ ∃ w ms gs, u = iniLines main ++ w ∧ loaded = ms ++ gs ∧ CutItems (iniLines main) ms main ∧
    ms.length = main.length ∧ CutGroups w gs groups

/-- The last line has been started, has no equals sign yet and is not a group name in brackets. -/
def CutInName (u : Str) : Prop :=
  ∃ lines w, u = lines ++ w ∧ (lines = [] ∨ lines.getLast? = some 10) ∧ w ≠ [] ∧ OneLine w ∧ 61 ∉ w ∧
    ¬ (w.head? = some 91 ∧ w.getLast? = some 93)

/-- No line of the document can be taken for another when its end is missing: keys do not start with a bracket, and names of groups
have no equals sign and no closing bracket. -/
structure PlainIni (main groups : List (Str × PN)) : Prop where
  main : ∀ kn ∈ main, kn.1.head? ≠ some 91
  items : ∀ kn ∈ groups, ∀ x ∈ kids kn.2, x.1.head? ≠ some 91
  names : ∀ kn ∈ groups, 61 ∉ kn.1 ∧ 93 ∉ kn.1

end Flut.Spec
