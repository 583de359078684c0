import Verif.Proofs.PropDoc

/-! # Property theorems: hand-written prop documents (C103) -/

namespace Flut

open Spec

/-- Every document of the grammar is read as the tree it describes, in order and at any depth. Missing from the full
property: blanks where no word stands, which the grammar leaves out because the code does not accept them. -/
theorem C103_documents_partial (d : Document) (h : d.Valid) : parseProp d.text = .ok d.tree :=
  parseProp_document h

/-- A document with nested groups, comments, both kinds of quotes and an escape. -/
def exampleDocument : Document :=
  { first := [.comment b!" settings" 10]
    entries :=
      [.pair (.bare [] b!"name" b!" ") [] [] (.quoted b!" " 34 [.raw 97, .quote, .raw 61] b!" ") [.comment b!" quoted" 10],
       .group (.bare [] b!"outer" b!" ") [] [.sep 10]
         [.group (.bare b!"  " b!"inner" []) [.sep 10, .sep 9] [.sep 10]
           [.pair (.bare b!"    " b!"x y" []) [] [] (.bare b!" " b!"1 2 3" []) [.sep 59],
            .pair (.bare b!" " b!"z" []) [] [] (.quoted [] 39 [] []) [.sep 10, .sep 9]] [.sep 10],
          .pair (.bare b!"  " b!"w" []) [] [] (.bare [] b!"5" b!" ") []] []]
    lastComment := some b!" end" }

example : exampleDocument.text = (b!"% settings\n" ++ b!"name = \"a\\\"=\" % quoted\n" ++ b!"outer {\n" ++
    b!"  inner\n\t{\n" ++ b!"    x y= 1 2 3; z=''\n\t}\n" ++ b!"  w=5 }% end") := by decide

example : exampleDocument.Valid ∧ exampleDocument.tree = .mk false [] [(b!"name", .leaf b!"a\"="),
    (b!"outer", .mk false [] [(b!"inner", .mk false [] [(b!"x y", .leaf b!"1 2 3"), (b!"z", .leaf [])]),
      (b!"w", .leaf b!"5")])] := by
  refine ⟨⟨by decide, ?_, ?_⟩, by rfl⟩
  · simp [exampleDocument, entriesValid, Entry.Valid, Word.IsKey, Word.Valid, Word.Nothing, Word.says,
      StartsWithSeparator]
    decide
  · intro w hw
    simp [exampleDocument] at hw
    subst hw
    decide

/-- Blanks before a closing brace are not accepted where no value precedes them: after the brace of an inner group, in
an empty group, or on a line of their own. -/
theorem C103_blank_before_brace_refuted : parseProp b!"g { h { b = 1 } }" = .throws .flutError ∧
    parseProp b!"g { }" = .throws .flutError ∧ parseProp b!"g {\n  h {\n    b = 1\n  }\n}\n" = .throws .flutError ∧
    ∃ r, parseProp b!"g {\n\th {\n\t\tb = 1\n\t}\n}\n" = .ok r ∧ r.children.length = 1 :=
  ⟨rfl, rfl, rfl, _, rfl, rfl⟩

/-- Nor before an opening brace on a line of its own: the group is read as an empty node, and its brace is an error
inside another group and the end of the document outside one. -/
theorem C103_blank_before_open_refuted : parseProp b!"g {\n  h\n  {\n\t}\n}\n" = .throws .flutError ∧
    ∃ r, parseProp b!"h\n  {\n  b = 1\n}\nc = 2\n" = .ok r ∧ r = .mk false [] [(b!"h", .mk false [] [])] :=
  ⟨rfl, _, rfl, rfl⟩

/-- Nor before a comment on a line of its own: outside a group the rest of the document is lost without an error,
inside one it is an error. -/
theorem C103_blank_before_comment_refuted : parseProp b!"g {\n  % note\n  b = 1\n}\n" = .throws .flutError ∧
    ∃ r, parseProp b!"a = 1\n  % note\nb = 2\n" = .ok r ∧ r = .mk false [] [(b!"a", .leaf b!"1")] :=
  ⟨rfl, _, rfl, rfl⟩

/-- A quoted percent sign starts a comment, and the next token is taken for the value. -/
theorem C103_quoted_percent_refuted : ∃ r, parseProp b!"a = \"%\"; x\nb = 2\n" = .ok r ∧
    r = .mk false [] [(b!"a", .leaf b!"b")] := ⟨_, rfl, rfl⟩

/-- An empty pair of quotes just before a brace is lost, and the brace is taken for the value. -/
theorem C103_empty_before_brace_refuted : ∃ r, parseProp b!"g{a=\"\"}\nb = 2\n" = .ok r ∧
    r = .mk false [] [(b!"g", .mk false [] [(b!"a", .leaf b!"}"), (b!"b", .leaf b!"2")])] := ⟨_, rfl, rfl⟩

/-- Text before a quote in the same word is lost. -/
theorem C103_text_before_quote_refuted : ∃ r, parseProp b!"a = x\"y\"\n" = .ok r ∧
    r = .mk false [] [(b!"a", .leaf b!"y")] := ⟨_, rfl, rfl⟩

/-- A single quote cannot be escaped: the backslash becomes a question mark and the quote ends the word; here the
closing quote then opens another word that takes the rest of the document. -/
theorem C103_escaped_single_quote_refuted : ∃ r, parseProp b!"a = 'it\\'s'\nb = 2" = .ok r ∧
    r = .mk false [] [(b!"a", .leaf b!"it?\nb = 2")] := ⟨_, rfl, rfl⟩

/-- A group that is never closed is accepted. -/
theorem C103_unclosed_accepted : ∃ r, parseProp b!"g { b = 1\n" = .ok r ∧
    r = .mk false [] [(b!"g", .mk false [] [(b!"b", .leaf b!"1")])] := ⟨_, rfl, rfl⟩

/-- A key without `=` or `{` takes the next token with it. -/
theorem C103_lone_key_refuted : ∃ r, parseProp b!"a\nb = 2\n" = .ok r ∧ r = .mk false [] [(b!"a", .mk false [] [])] :=
  ⟨_, rfl, rfl⟩

end Flut
