import Verif.Proofs.Rewrite

/-!
# Loading a prop document, saving it and loading it again

C132. A program that loads a file, and saves it later, must not change what the file means. Specifications are in
`Spec/Rewrite.lean` and `Spec/PropText.lean`.
-/

namespace Flut

open Spec

/-- C132. Whatever a document looks like: if it loads, and no key or value contains one of `= { } % ; '` without also
containing a blank or another character that makes the writer use quotes, and all characters are 7-bit, then saving the
tree in the readable form and loading it again gives the very same tree. Nothing else has to be assumed: loaded trees
have the other features that saving needs. -/
theorem C132_rewrite (doc : Str) (n : PN) (h : parseProp doc = .ok n) (hc : AllText Clean n) :
    parseProp (savedProp true n) = .ok n :=
  rewrite_clean h hc

/-- The saved text does not change any more from then on. -/
theorem C132_stable (doc : Str) (n : PN) (h : parseProp doc = .ok n) (hc : AllText Clean n) :
    ∃ m, parseProp (savedProp true n) = .ok m ∧ savedProp true m = savedProp true n :=
  ⟨n, rewrite_clean h hc, rfl⟩

/-- A document with a comment, a value in quotes, two nodes on one line and odd spacing. -/
example : ∃ n, parseProp b!"% c\nk 1=\"{ x\"; a { b = 1 }" = .ok n ∧ AllText Clean n ∧
    n.children.map Prod.fst = [b!"k 1", b!"a"] ∧ parseProp (savedProp true n) = .ok n := by
  have h : parseProp b!"% c\nk 1=\"{ x\"; a { b = 1 }" = .ok (.mk false [] [
      (b!"k 1", .leaf b!"{ x"), (b!"a", .mk false [] [(b!"b", .leaf b!"1")])]) := rfl
  have hl : ∀ v, Clean v → AllText Clean (.leaf v) := fun v hv => .mk hv (by simp) (by simp)
  have hc : AllText Clean (.mk false [] [
      (b!"k 1", .leaf b!"{ x"), (b!"a", .mk false [] [(b!"b", .leaf b!"1")])]) := by
    refine .mk (by decide) (by decide) ?_
    simp only [List.mem_cons, List.not_mem_nil, or_false, forall_eq_or_imp, forall_eq]
    refine ⟨hl _ (by decide), .mk (by decide) (by decide) ?_⟩
    simp only [List.mem_cons, List.not_mem_nil, or_false, forall_eq]
    exact hl _ (by decide)
  exact ⟨_, h, hc, rfl, C132_rewrite _ _ h hc⟩

/-- C132. In particular every 7-bit document without quotes of either kind can be rewritten, as long as no value is a
lone `=`, `{` or `}`. -/
theorem C132_plain (doc : Str) (n : PN) (hd : ∀ c ∈ cstr doc, c.toNat < 128 ∧ c ≠ c!"\"" ∧ c ≠ c!"'")
    (h : parseProp doc = .ok n) (hs : AllText (fun t => ¬ Sign t) n) : parseProp (savedProp true n) = .ok n := by
  refine rewrite_clean h ?_
  have h1 := parse_noQuotes hd h
  clear h hd
  induction h1 with
  | mk a1 a2 _ ih =>
    cases hs with
    | mk b1 b2 b3 =>
      exact .mk (a1.resolve_right b1) (fun kn hkn => (a2 kn hkn).resolve_right (b2 kn hkn))
        (fun kn hkn => ih kn hkn (b3 kn hkn))

example : (∀ c ∈ cstr b!"a { b = 1; c = two words % so\n}", c.toNat < 128 ∧ c ≠ c!"\"" ∧ c ≠ c!"'") ∧
    parseProp b!"a { b = 1; c = two words % so\n}" = .ok (.mk false [] [(b!"a", .mk false [] [(b!"b", .leaf b!"1"),
      (b!"c", .leaf b!"two words")])]) := by
  refine ⟨by decide, by rfl⟩

/-- C132 is false without the condition on keys and values: quotes that a document needs are not written again. This
document gives `x=y` when it is loaded, and `x` when it has been saved and is loaded again. -/
theorem C132_quotes_refuted : ∃ n m, parseProp b!"a = \"x=y\"\nb = 1\n" = .ok n ∧ parseProp (savedProp true n) = .ok m ∧
    n.children.map (fun kn => kn.2.value) = [b!"x=y", b!"1"] ∧ m.children.map (fun kn => kn.2.value) = [b!"x"] :=
  ⟨_, _, rfl, rfl, rfl, rfl⟩

/-- And a value that is a sign is lost, with all that follows. -/
theorem C132_sign_refuted : ∃ n m, parseProp b!"a ==\nb = 1\n" = .ok n ∧ parseProp (savedProp true n) = .ok m ∧
    n.children.map (fun kn => kn.2.value) = [b!"=", b!"1"] ∧ m.children.map (fun kn => kn.2.value) = [b!""] :=
  ⟨_, _, rfl, rfl, rfl, rfl⟩

/-- C132. The values that survive are exactly the printable ones: a file with one key and one value is read back as it
was if, and only if, the value is 7-bit, has no blank at either end, and contains `= { } % ; '` only next to a character
that makes the writer use quotes. -/
theorem C132_value (k v : Str) (hk : PrintableKey k) :
    parseProp (savedProp true (.mk false [] [(k, .leaf v)])) = .ok (.mk false [] [(k, .leaf v)]) ↔ Printable v := by
  refine ⟨leaf_survives hk, fun hv => ?_⟩
  have := parseProp_written (a := false) (cs := [(k, .leaf v)]) (by simpa using hk) (by simpa using .leaf hv)
  simpa [PN.clearAll, PN.clear, PN.leaf] using this

example : PrintableKey b!"key" ∧ Printable b!"a = b" ∧ ¬ Printable b!"a=b" ∧ ¬ Printable b!"it's" ∧ ¬ Printable [195, 169] := by
  decide

end Flut
