import Verif.Proofs.PropRoundTrip
import Verif.Props.CharStream

/-!
# Properties of prop text (`flut/prop_node_tools.cpp`)

C16 totality of `parse_prop`, C17 round trip of the readable form, C18 comments, C19 the compact form.
Specifications are in `Spec/PropText.lean` and `Spec/CharStream.lean`.
-/

namespace Flut

open Spec CharStream

/-! ## C16: `parse_prop` always returns or throws -/

/-- On every 7-bit text that does not end in a backslash `parse_prop` returns a tree or throws `flut::exception`:
no undefined behaviour and no endless loop. -/
theorem C16_total (text : Str) (h7 : ∀ c ∈ cstr text, c.toNat < 128) (hb : (cstr text).getLast? ≠ some 92) :
    (∃ n, parseProp text = .ok n) ∨ parseProp text = .throws .flutError :=
  (parseStream_total (init_propStream h7 hb)).symm

example : (∀ c ∈ cstr b!"a { b = \"x\\\\\" % c\n", c.toNat < 128) ∧ (cstr b!"a { b = \"x\\\\\" % c\n").getLast? ≠ some 92 := by
  decide

/-- It throws on some texts and returns on others. -/
theorem C16_both_occur : parseProp b!"a { = }" = .throws .flutError ∧
    ∃ n, parseProp b!"a { b = 1 }" = .ok n ∧ n.children.length = 1 := by
  refine ⟨rfl, _, rfl, rfl⟩

/-- The exclusion is needed: a value with an open quote that ends in a backslash hangs (and by `C14_hangs` no bound
on the number of steps helps). -/
theorem C16_hang_family (w : Str) (hw : ∀ c ∈ w, c ≠ 34 ∧ c ≠ 92 ∧ c ≠ 0) :
    parseProp (b!"a = \"" ++ w ++ [92]) = .diverges := by
  have hz : cstr (b!"a = \"" ++ w ++ [92]) = [] ++ tryQuoted b!"a" ++ b!" =" ++ (32 :: 34 :: (w ++ [92])) := by
    rw [cstr_of_ne_zero]
    · simp [tryQuoted, needsQuotes, schar]
    · intro c hc
      simp only [List.mem_append, List.mem_cons, List.not_mem_nil, or_false] at hc
      rcases hc with ((rfl | rfl | rfl | rfl | rfl) | hc) | rfl
      all_goals first | decide | exact (hw c hc).2.2
  have h1 := tok_label_assign (dl := []) (k := b!"a") (R := 32 :: 34 :: (w ++ [92])) (by simp) (by decide) (by decide)
  have h2 := tok_op (dl := []) (R := 32 :: 34 :: (w ++ [92])) (op := 61) (by simp) (by simp)
  have h3 : getPropToken (pinit (32 :: 34 :: (w ++ [92]))) = .diverges := by
    rw [pinit_cons (by decide)]
    have := C14_hangs { rest := 32 :: 34 :: (w ++ [92]), delims := propDelims } propOperators propQuotes
      (by simp [propQuotes]) ⟨rfl, rfl⟩
      (.skip (by decide) (show (32 : Byte) ∉ propDelims by decide) (by decide) (by decide)
        (.here (by decide) (show (34 : Byte) ∉ propDelims by decide) (by decide) (by
          rw [scanQuote_plains (fun c hc => ⟨(hw c hc).1, (hw c hc).2.1⟩)]; decide)))
    rw [getPropToken, getPropTokenN, getToken, this]
    rfl
  rw [List.nil_append] at h2
  rw [parseProp, ofCStr, hz, parseStream, h1]
  have hv : isValidLabel b!"a" = .ok true := by decide
  simp only [Res.bind_ok, parseLoop, hv, if_true, readNode, h2, h3, Res.bind_diverges]

/-! ## C17: the readable form round-trips -/

/-- A forest of printable trees, saved in the readable form, is read back as an equal tree. The root node of a
file has no value of its own. -/
theorem C17_round_trip (n : PN) (hv : n.value = []) (hk : ∀ kn ∈ n.children, PrintableKey kn.1)
    (hn : ∀ kn ∈ n.children, PrintableTree kn.2) :
    ∃ r, parseProp (savedProp true n) = .ok r ∧ SameTree r n := by
  obtain ⟨a, v, cs⟩ := n
  simp only [PN.value, PN.children] at hv hk hn
  subst hv
  refine ⟨.mk false [] (PN.clearAll cs), ?_, ?_⟩
  · exact parseProp_written hk hn
  · rw [PN.sameTree_iff]
    have := PN.clear_clear (.mk a [] cs)
    rw [PN.clear] at this
    rw [this, PN.clear]

example : PrintableKey b!"key one" ∧ PrintableTree (.mk true [] [(b!"a", .mk false b!"say \"{}\"" []),
    (b!"b", .mk true [] [(b!"c", .mk false [] [])])]) := by
  refine ⟨by decide, .node (by simp) (by decide) ?_⟩
  intro kn hkn
  simp only [List.mem_cons, List.not_mem_nil, or_false] at hkn
  rcases hkn with rfl | rfl
  · exact .leaf (by decide)
  · refine .node (by simp) (by decide) ?_
    intro kn hkn
    simp only [List.mem_cons, List.not_mem_nil, or_false] at hkn
    subst hkn
    exact .leaf (by decide)

/-- The side conditions are needed. A special character in a value that is not quoted is lost. -/
theorem C17_special_refuted : ∃ r, parseProp (savedProp true (.mk false [] [(b!"a", .leaf b!"x=y")])) = .ok r ∧
    r.children.map Prod.fst = [b!"a"] ∧ r.children.map (fun kn => kn.2.value) = [b!"x"] := ⟨_, rfl, rfl, rfl⟩

/-- The children of a node that also has a value are lost. -/
theorem C17_value_and_children_refuted : ∃ r, parseProp (savedProp true (.mk false []
    [(b!"a", .mk false b!"v" [(b!"b", .leaf b!"w")])])) = .ok r ∧ r.children.map Prod.fst = [b!"a"] ∧
    r.children.map (fun kn => kn.2.size) = [0] := ⟨_, rfl, rfl, rfl⟩

/-- Leading and trailing white space of a value is lost. -/
theorem C17_space_refuted : ∃ r, parseProp (savedProp true (.mk false [] [(b!"a", .leaf b!" x ")])) = .ok r ∧
    r.children.map (fun kn => kn.2.value) = [b!"x"] := ⟨_, rfl, rfl⟩

/-- A key that does not start with a letter silently ends the document. -/
theorem C17_key_refuted : ∃ r, parseProp (savedProp true (.mk false []
    [(b!"1", .leaf b!"x"), (b!"b", .leaf b!"y")])) = .ok r ∧ r.children.length = 0 := ⟨_, rfl, rfl⟩

/-! ## C18: comments -/

/-- A `%` followed by the rest `w` of its line, where something other than tabs, vertical tabs and semicolons
follows the `%`, is skipped up to the end of that line: the next token is the one that the text from there on
gives. Missing from the full property: comments with nothing after the `%`, see `C18_empty_comment_refuted`. -/
theorem C18_comment_partial (w R : Str) (hw : ∀ c ∈ w, c ≠ 0 ∧ c ≠ 13 ∧ c ≠ 10)
    (hv : ∃ c ∈ w, c ≠ 9 ∧ c ≠ 11 ∧ c ≠ 59) (hR : ∀ c ∈ R.head?, c = 10 ∨ c = 13) :
    getPropToken (init (b!"%" ++ w ++ R) propDelims) = getPropToken (init R propDelims) :=
  getPropToken_comment_line hw hv hR

/-- So a leading comment line does not change what a saved file is read as. -/
theorem C18_comment_file_partial (w : Str) (n : PN) (hw : ∀ c ∈ w, c ≠ 0 ∧ c ≠ 13 ∧ c ≠ 10)
    (hc : ∃ c ∈ w, c ≠ 9 ∧ c ≠ 11 ∧ c ≠ 59) (hk : ∀ kn ∈ n.children, PrintableKey kn.1)
    (hn : ∀ kn ∈ n.children, PrintableTree kn.2) :
    parseProp (b!"%" ++ w ++ b!"\n" ++ savedProp true n) = parseProp (savedProp true n) := by
  obtain ⟨a, v, cs⟩ := n
  exact (parseProp_comment_written hw hc hk hn).trans (parseProp_written (a := a) hk hn).symm

example : (∀ c ∈ b!" one {", c ≠ 0 ∧ c ≠ 13 ∧ c ≠ 10) ∧ ∃ c ∈ b!" one {", c ≠ 9 ∧ c ≠ 11 ∧ c ≠ 59 := by decide

/-- When only delimiters follow the `%` on its line, the next line that is not blank is swallowed as well. -/
theorem C18_empty_comment_refuted (dl u R : Str) (hdl : ∀ d ∈ dl, d ∈ propDelims)
    (hu : ∀ c ∈ u, c ≠ 0 ∧ c ≠ 13 ∧ c ≠ 10) (hh : ∃ c ∈ u.head?, c ∉ propDelims)
    (hR : ∀ c ∈ R.head?, c = 10 ∨ c = 13) :
    getPropToken (init (b!"%" ++ dl ++ b!"\n" ++ u ++ R) propDelims) = getPropToken (init R propDelims) := by
  obtain ⟨c, hc, hcd⟩ := hh
  have h0 : c ≠ 0 := by
    cases u with
    | nil => simp at hc
    | cons x xs => simp at hc; subst hc; exact (hu x (by simp)).1
  have := getPropToken_comment (dl := dl ++ [10]) (u := u) (R := R) (fun d hd => by
    rw [strchr_iff]
    rcases List.mem_append.1 hd with h | h
    · exact Or.inr (hdl d h)
    · simp at h; subst h; exact Or.inr (by decide)) hu ⟨c, hc, strchr_false.2 ⟨h0, hcd⟩⟩ hR
  simpa using this

/-- For instance a whole definition disappears. -/
theorem C18_lost_line : ∃ r, parseProp b!"%\na = 1\nb = 2\n" = .ok r ∧ r.children.map Prod.fst = [b!"b"] :=
  ⟨_, rfl, rfl⟩

/-! ## C19: the compact form -/

/-- The compact form of a file with two plain key/value pairs is never read back: the second key becomes part of the
first value and the second pair is lost. -/
theorem C19_siblings_refuted (k1 v1 k2 v2 : Str) (hk1 : PrintableKey k1) (hv1 : Printable v1) (hk2 : PrintableKey k2)
    (hv2 : Printable v2) (hne : v1 ≠ []) (p1 : ¬ ∃ c ∈ v1, ForcesQuotes c) (p2 : ¬ ∃ c ∈ k2, ForcesQuotes c) :
    parseProp (savedProp false (.mk false [] [(k1, .leaf v1), (k2, .leaf v2)])) =
      .ok (.mk false [] [(k1, .leaf (v1 ++ b!" " ++ k2))]) :=
  parse_compact_siblings hk1 hv1 hk2 hv2 hne p1 p2

example : PrintableKey b!"k1" ∧ Printable b!"12" ∧ ¬ ∃ c ∈ b!"12", ForcesQuotes c := by decide

/-- The compact form of nested groups is rejected with an exception. -/
theorem C19_nested_refuted : parseProp (savedProp false (.mk false []
    [(b!"a", .mk false [] [(b!"b", .mk false [] [(b!"c", .leaf b!"1")])])])) = .throws .flutError := rfl

/-- The compact form of a single key/value pair is read back. Missing: everything else, see above. -/
theorem C19_single_partial (k v : Str) (hk : PrintableKey k) (hv : Printable v) :
    parseProp (savedProp false (.mk false [] [(k, .leaf v)])) = .ok (.mk false [] [(k, .leaf v)]) :=
  parse_compact_single hk hv

end Flut
