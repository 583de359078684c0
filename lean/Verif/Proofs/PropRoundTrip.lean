import Verif.Proofs.PropText
import Verif.Proofs.PropNode

/-! # Writing and reading prop text -/

namespace Flut

open Spec CharStream

/-- The stream that `parse_prop` starts with. -/
abbrev pinit (x : Str) : CharStream := init x propDelims

theorem pinit_delims {dl x : Str} (h : ∀ c ∈ dl, strchr propDelims c = true) : pinit (dl ++ x) = pinit x := by
  simp only [pinit, init, skipDelims]
  rw [List.dropWhile_append_of_pos h]

theorem pinit_cons {c : Byte} {x : Str} (h : strchr propDelims c = false) :
    pinit (c :: x) = { rest := c :: x, delims := propDelims } := by
  simp [pinit, init, skipDelims, testEof, h]

/-- One token, given what the token loop does. -/
theorem getPropToken_step {dl Y t r v : Str} {c : Byte} {N : Nat} (hdl : ∀ d ∈ dl, strchr propDelims d = true)
    (hc : strchr propDelims c = false)
    (hN : tokenLoop propDelims propOperators propQuotes N [] [] (c :: Y) = .ok (t, r)) (ht : t ≠ b!"%")
    (htrim : trimStr t = .ok v) : getPropToken (pinit (dl ++ c :: Y)) = .ok (v, pinit r) := by
  rw [pinit_delims hdl, pinit_cons hc]
  have hg : ({ rest := c :: Y, delims := propDelims } : CharStream).good = true := rfl
  have h1 := getToken_of (s := { rest := c :: Y, delims := propDelims }) hg hN
  simp only [getPropToken, getPropTokenN, h1, Res.bind_ok, if_neg ht, htrim]
  rfl

/-! ### Characters -/

theorem needsQuotes_iff {s : Str} (hs : Ascii s) : needsQuotes s = true ↔ ∃ c ∈ s, ForcesQuotes c := by
  simp only [needsQuotes, List.any_eq_true]
  constructor
  · rintro ⟨c, hc, h⟩
    have := hs c hc
    refine ⟨c, hc, ?_⟩
    simp only [Bool.or_eq_true, decide_eq_true_eq, beq_iff_eq] at h
    unfold schar at h
    rw [if_pos (by omega)] at h
    rcases h with (h | h) | h
    · left; omega
    · right; left; exact h
    · right; right; exact h
  · rintro ⟨c, hc, h⟩
    have := hs c hc
    refine ⟨c, hc, ?_⟩
    simp only [Bool.or_eq_true, decide_eq_true_eq, beq_iff_eq]
    unfold schar
    rw [if_pos (by omega)]
    rcases h with h | h | h
    · left; left; omega
    · left; right; exact h
    · right; exact h

/-- A character that is written as it is and has no meaning to the reader. -/
theorem plain_char {c : Byte} (h1 : ¬ ForcesQuotes c) (h2 : ¬ Special c) :
    strchr propDelims c = false ∧ strchr propQuotes c = false ∧ strchr propOperators c = false := by
  have h0 : c ≠ 0 := by rintro rfl; exact h1 (by decide)
  simp only [ForcesQuotes, Special, not_or] at h1 h2
  obtain ⟨a1, a2, a3⟩ := h1
  obtain ⟨b1, b2, b3, b4, b5, b6⟩ := h2
  have ne : ∀ d : Byte, d.toNat ≤ 32 → c ≠ d := by rintro d hd rfl; exact a1 hd
  refine ⟨strchr_false.2 ⟨h0, ?_⟩, strchr_false.2 ⟨h0, ?_⟩, strchr_false.2 ⟨h0, ?_⟩⟩
  · simp only [propDelims, List.mem_cons, List.not_mem_nil, or_false, not_or]
    exact ⟨ne 10 (by decide), ne 13 (by decide), ne 9 (by decide), ne 11 (by decide), b5⟩
  · simp only [propQuotes, List.mem_cons, List.not_mem_nil, or_false, not_or]
    exact ⟨a2, b6⟩
  · simp only [propOperators, List.mem_cons, List.not_mem_nil, or_false, not_or]
    exact ⟨b1, b2, b3, b4⟩

theorem isSpace_iff {c : Byte} : IsSpace c ↔ c ∈ cstr defaultTrim := by
  have e : cstr defaultTrim = [32, 9, 13, 10, 12, 11] := by decide
  rw [e]
  simp only [IsSpace, List.mem_cons, List.not_mem_nil, or_false]
  constructor
  · rintro (rfl | ⟨h1, h2⟩)
    · simp
    · right
      have : c.toNat = 9 ∨ c.toNat = 10 ∨ c.toNat = 11 ∨ c.toNat = 12 ∨ c.toNat = 13 := by omega
      simp only [← UInt8.toNat_inj]
      simp
      omega
  · rintro (rfl | rfl | rfl | rfl | rfl | rfl) <;> decide

theorem trim_trimmed {s : Str} (a b : Str) (h : Trimmed s) (ha : ∀ c ∈ a, IsSpace c) (hb : ∀ c ∈ b, IsSpace c) :
    trimStr (a ++ s ++ b) = .ok s :=
  trimStr_eq (fun c hc => isSpace_iff.1 (ha c hc)) (fun c hc => isSpace_iff.1 (hb c hc))
    (fun c hc hs => h.1 c hc (isSpace_iff.2 hs)) (fun c hc hs => h.2 c hc (isSpace_iff.2 hs))

/-! ### The token loop over a written string -/

/-- After the written form of a printable string the loop has either collected it behind what was pending,
or decoded it and dropped what was pending. -/
theorem tokenLoop_tryQuoted {s : Str} (hs : Printable s) (n : Nat) (pend rest : Str) (hr : rest ≠ []) :
    ∃ N m acc p, tokenLoop propDelims propOperators propQuotes N [] pend (tryQuoted s ++ rest) =
      tokenLoop propDelims propOperators propQuotes (n + m + 1) acc p rest ∧
      ((acc = [] ∧ p = pend ++ s) ∨ (acc = s ∧ p = [])) := by
  by_cases hq : needsQuotes s = true
  · have e : tryQuoted s = quoted s := by simp [tryQuoted, hq]
    refine ⟨n + s.length + 2, s.length, s, [], ?_, Or.inr ⟨rfl, rfl⟩⟩
    rw [e, tokenLoop_quoted hs.1 (by decide) (by decide), if_neg hr]
    simp
  · refine ⟨n + 0 + 1 + s.length, 0, [], pend ++ s, ?_, Or.inl ⟨rfl, rfl⟩⟩
    have e : tryQuoted s = s := by simp [tryQuoted, hq]
    rw [e]
    apply tokenLoop_plains
    have hnf : ∀ c ∈ s, ¬ ForcesQuotes c := fun c hc hf => hq ((needsQuotes_iff hs.1).2 ⟨c, hc, hf⟩)
    rcases hs.2.2 with ⟨c, hc, hf⟩ | h
    · exact absurd hf (hnf c hc)
    · exact fun c hc => plain_char (hnf c hc) (h c hc)

theorem printable_ne_percent {s : Str} (hs : Printable s) : s ≠ b!"%" := by
  rintro rfl
  rcases hs.2.2 with ⟨c, hc, hf⟩ | h
  · simp at hc; subst hc; revert hf; decide
  · exact h 37 (by simp) (by decide)

theorem tryQuoted_head {s : Str} (hs : Printable s) (hne : s ≠ []) :
    ∃ c Y, tryQuoted s = c :: Y ∧ strchr propDelims c = false := by
  by_cases hq : needsQuotes s = true
  · exact ⟨34, s.flatMap quoteChar ++ [34], by simp [tryQuoted, hq, quoted], by decide⟩
  · have hnf : ∀ c ∈ s, ¬ ForcesQuotes c := fun c hc hf => hq ((needsQuotes_iff hs.1).2 ⟨c, hc, hf⟩)
    cases s with
    | nil => exact absurd rfl hne
    | cons c Y =>
      refine ⟨c, Y, by simp [tryQuoted, hq], ?_⟩
      rcases hs.2.2 with ⟨d, hd, hf⟩ | h
      · exact absurd hf (hnf d hd)
      · exact (plain_char (hnf c (by simp)) (h c (by simp))).1

/-! ### Tokens of written text -/

theorem tok_label_assign {dl k R : Str} (hdl : ∀ d ∈ dl, strchr propDelims d = true) (hk : Printable k) (hne : k ≠ []) :
    getPropToken (pinit (dl ++ tryQuoted k ++ b!" =" ++ R)) = .ok (k, pinit (61 :: R)) := by
  obtain ⟨c, Y, hY, hc⟩ := tryQuoted_head hk hne
  obtain ⟨N, m, acc, p, h1, h2⟩ := tokenLoop_tryQuoted hk 1 [] (32 :: 61 :: R) (by simp)
  have e : tokenLoop propDelims propOperators propQuotes (1 + m + 1) acc p (32 :: 61 :: R) =
      .ok (k ++ [32], 61 :: R) := by
    have e1 : 1 + m + 1 = m + 1 + 1 := by omega
    rw [e1, tokenLoop_plain (by decide) (by decide) (by decide),
      tokenLoop_op (by decide) (by decide) (by decide), if_neg (by simp)]
    rcases h2 with ⟨rfl, rfl⟩ | ⟨rfl, rfl⟩ <;> simp
  rw [e] at h1
  have := getPropToken_step (dl := dl) (c := c) (Y := Y ++ 32 :: 61 :: R) (v := k) hdl hc
    (by rw [← List.cons_append, ← hY]; exact h1)
    (by cases k with
      | nil => exact absurd rfl hne
      | cons a l => simp)
    (by simpa using trim_trimmed [] [32] hk.2.1 (by simp) (by simp [IsSpace]))
  rw [← this, ← List.cons_append, ← hY]
  simp

theorem tok_label_newline {dl k R : Str} (hdl : ∀ d ∈ dl, strchr propDelims d = true) (hk : Printable k) (hne : k ≠ []) :
    getPropToken (pinit (dl ++ tryQuoted k ++ 10 :: R)) = .ok (k, pinit R) := by
  obtain ⟨c, Y, hY, hc⟩ := tryQuoted_head hk hne
  obtain ⟨N, m, acc, p, h1, h2⟩ := tokenLoop_tryQuoted hk 1 [] (10 :: R) (by simp)
  have e : tokenLoop propDelims propOperators propQuotes (1 + m + 1) acc p (10 :: R) = .ok (k, 10 :: R) := by
    rw [tokenLoop_delim (by decide)]
    rcases h2 with ⟨rfl, rfl⟩ | ⟨rfl, rfl⟩ <;> simp
  rw [e] at h1
  have := getPropToken_step (dl := dl) (c := c) (Y := Y ++ 10 :: R) (v := k) hdl hc
    (by rw [← List.cons_append, ← hY]; exact h1) (printable_ne_percent hk)
    (by simpa using trim_trimmed [] [] hk.2.1 (by simp) (by simp))
  have hR : pinit (10 :: R) = pinit R := pinit_delims (dl := [10]) (by decide)
  rw [← List.cons_append, ← hY, hR] at this
  rw [← this]
  simp

theorem tok_op {dl R : Str} {op : Byte} (hdl : ∀ d ∈ dl, strchr propDelims d = true)
    (hop : op = 61 ∨ op = 123 ∨ op = 125) :
    getPropToken (pinit (dl ++ op :: R)) = .ok ([op], pinit R) := by
  have h : strchr propDelims op = false ∧ strchr propQuotes op = false ∧ strchr propOperators op = true ∧
      [op] ≠ b!"%" ∧ trimStr [op] = .ok [op] := by
    rcases hop with rfl | rfl | rfl <;> decide
  obtain ⟨h1, h2, h3, h4, h5⟩ := h
  refine getPropToken_step (N := 1) hdl h1 ?_ h4 h5
  rw [tokenLoop_op h1 h2 h3]; rfl

theorem tok_value {v R : Str} (hv : Printable v) :
    getPropToken (pinit (32 :: (tryQuoted v ++ 10 :: R))) = .ok (v, pinit R) := by
  obtain ⟨N, m, acc, p, h1, h2⟩ := tokenLoop_tryQuoted hv 1 [32] (10 :: R) (by simp)
  have hR : pinit (10 :: R) = pinit R := pinit_delims (dl := [10]) (by decide)
  have e : ∃ t, tokenLoop propDelims propOperators propQuotes (1 + m + 1) acc p (10 :: R) = .ok (t, 10 :: R) ∧
      (t = 32 :: v ∨ t = v) := by
    rw [tokenLoop_delim (by decide)]
    rcases h2 with ⟨rfl, rfl⟩ | ⟨rfl, rfl⟩
    · exact ⟨_, rfl, Or.inl (by simp)⟩
    · exact ⟨_, rfl, Or.inr (by simp)⟩
  obtain ⟨t, e, ht⟩ := e
  rw [e] at h1
  have := getPropToken_step (dl := []) (c := 32) (Y := tryQuoted v ++ 10 :: R) (v := v) (N := N + 1) (by simp) (by decide)
    (by rw [tokenLoop_plain (by decide) (by decide) (by decide)]; exact h1)
    (by
      rcases ht with rfl | rfl
      · simp
      · exact printable_ne_percent hv)
    (by
      rcases ht with rfl | rfl
      · simpa using trim_trimmed [32] [] hv.2.1 (by simp [IsSpace]) (by simp)
      · simpa using trim_trimmed [] [] hv.2.1 (by simp) (by simp))
  rw [hR] at this
  simpa using this

theorem tok_empty_value {R : Str} : getPropToken (pinit (b!" \"\"" ++ 10 :: R)) = .ok ([], pinit R) := by
  have hR : pinit (10 :: R) = pinit R := pinit_delims (dl := [10]) (by decide)
  have := getPropToken_step (dl := []) (c := 32) (Y := 34 :: 34 :: 10 :: R) (t := []) (r := 10 :: R) (v := [])
    (N := 3) (by simp) (by decide) (by
      rw [tokenLoop_plain (by decide) (by decide) (by decide), tokenLoop_quote (by decide) (by decide),
        quoteLoop_close]
      simp only [Res.bind_ok, List.isEmpty_cons, Bool.false_eq_true, if_false]
      rw [tokenLoop_delim (by decide)]; rfl) (by decide) (by decide)
  rw [hR] at this
  simpa using this

/-! ### Trees -/

theorem indent_delims (l : Nat) : ∀ d ∈ indentStr true l, strchr propDelims d = true := by
  intro d hd
  simp [indentStr] at hd
  rw [hd.2]; decide

theorem isValidLabel_key {k : Str} (hk : PrintableKey k) : isValidLabel k = .ok true ∧ k ≠ [] ∧ k ≠ b!"}" := by
  obtain ⟨hp, c, hc, hl⟩ := hk
  cases k with
  | nil => simp at hc
  | cons d ds =>
    simp at hc; subst hc
    have hlt : ¬ 128 ≤ d.toNat := by
      unfold IsLetter at hl; omega
    refine ⟨?_, by simp, ?_⟩
    · simp only [isValidLabel, if_neg hlt]
      have : isAlphaC d = true := by
        simp only [isAlphaC, Bool.or_eq_true, Bool.and_eq_true, decide_eq_true_eq, UInt8.le_iff_toNat_le]
        exact hl
      rw [this]
    · intro h
      simp at h
      rw [h.1] at hl
      revert hl; decide

mutual
/-- How much fuel reading a written node takes. -/
def nodeFuel : PN → Nat
  | .mk _ _ cs => if cs.isEmpty then 1 else 1 + listFuel cs
/-- How much fuel reading written children takes. -/
def listFuel : List (Str × PN) → Nat
  | [] => 2
  | (_, n) :: r => 1 + nodeFuel n + listFuel r
end

theorem pinit_good {dl Y : Str} {c : Byte} (hdl : ∀ d ∈ dl, strchr propDelims d = true)
    (hc : strchr propDelims c = false) : (pinit (dl ++ c :: Y)).good = true := by
  rw [pinit_delims hdl, pinit_cons hc]; rfl

/-- What reading a written node does. -/
def ReadsBack (n : PN) : Prop := ∀ (k : Str) (l : Nat) (R : Str), PrintableKey k →
  ∃ s, getPropToken (pinit (writeNode true k l n ++ R)) = .ok (k, s) ∧
    (pinit (writeNode true k l n ++ R)).good = true ∧
    (∀ f, nodeFuel n ≤ f → readNode f s = .ok (n.clear, pinit R)) ∧
    nodeFuel n ≤ s.rest.length + 1 ∧ nodeFuel n < (writeNode true k l n).length

theorem readChildren_written {cs : List (Str × PN)} (hk : ∀ kn ∈ cs, PrintableKey kn.1)
    (hn : ∀ kn ∈ cs, ReadsBack kn.2) (l m : Nat) (R : Str) : ∀ (f : Nat) (t : Str), t ≠ b!"}" → listFuel cs ≤ f →
    readChildren f (pinit (writeNodes true l cs ++ (indentStr true m ++ (125 :: 10 :: R)))) t =
      .ok (PN.clearAll cs, pinit R) := by
  induction cs with
  | nil =>
    intro f t ht hf
    simp only [listFuel] at hf
    obtain ⟨f, rfl⟩ := Nat.exists_eq_add_of_le' hf
    have hR : pinit (10 :: R) = pinit R := pinit_delims (dl := [10]) (by decide)
    have h1 := tok_op (R := 10 :: R) (op := 125) (indent_delims m) (by simp)
    have hg := pinit_good (Y := 10 :: R) (c := 125) (indent_delims m) (by decide)
    have hv : isValidLabel [125] = .ok false := by decide
    simp only [writeNodes, List.nil_append, readChildren, hg, Bool.true_and, decide_eq_true_eq, ne_eq, ht,
      not_false_eq_true, if_true, h1, Res.bind_ok, hv, Bool.false_eq_true, if_false, not_true_eq_false,
      decide_false, Bool.and_false, hR, PN.clearAll]
  | cons kn cs ih =>
    obtain ⟨k, n⟩ := kn
    intro f t ht hf
    simp only [listFuel] at hf
    obtain ⟨f, rfl⟩ : ∃ g, f = g + 1 := ⟨f - 1, by omega⟩
    have hkk : PrintableKey k := hk (k, n) (by simp)
    obtain ⟨hv, _, hne⟩ := isValidLabel_key hkk
    have hnn : ReadsBack n := hn (k, n) (by simp)
    obtain ⟨s, h1, h2, h3, _⟩ := hnn k l
      (writeNodes true l cs ++ (indentStr true m ++ (125 :: 10 :: R))) hkk
    have h4 := ih (fun x hx => hk x (by simp [hx])) (fun x hx => hn x (by simp [hx])) f k hne (by omega)
    rw [writeNodes, List.append_assoc, readChildren, h2]
    simp only [Bool.true_and, decide_eq_true_eq, ne_eq, ht, not_false_eq_true, if_true, h1, Res.bind_ok, hv,
      h3 f (by omega), h4, PN.clearAll]

theorem listFuel_le {cs : List (Str × PN)} (hk : ∀ kn ∈ cs, PrintableKey kn.1)
    (hn : ∀ kn ∈ cs, ReadsBack kn.2) (l : Nat) : listFuel cs ≤ (writeNodes true l cs).length + 2 := by
  induction cs with
  | nil => simp [listFuel]
  | cons kn cs ih =>
    obtain ⟨k, n⟩ := kn
    have hnn : ReadsBack n := hn (k, n) (by simp)
    obtain ⟨s, _, _, _, _, h⟩ := hnn k l [] (hk (k, n) (by simp))
    have := ih (fun x hx => hk x (by simp [hx])) (fun x hx => hn x (by simp [hx]))
    simp only [listFuel, writeNodes, List.length_append] at *
    omega

theorem readsBack {n : PN} (hn : PrintableTree n) : ReadsBack n := by
  induction hn with
  | @leaf a v hv =>
    intro k l R hk
    obtain ⟨_, hne, _⟩ := isValidLabel_key hk
    obtain ⟨c, Y, hY, hc⟩ := tryQuoted_head hk.1 hne
    have e : writeNode true k l (.mk a v []) ++ R = indentStr true l ++ tryQuoted k ++ b!" =" ++
        (32 :: ((if v = [] then b!"\"\"" else tryQuoted v) ++ 10 :: R)) := by
      cases v <;> simp [writeNode, writeValue, PN.hasValue, PN.empty, PN.value, PN.children, newlineStr]
    have h2 : getPropToken (pinit (32 :: ((if v = [] then b!"\"\"" else tryQuoted v) ++ 10 :: R))) =
        .ok (v, pinit R) := by
      split
      · rename_i h; subst h; exact tok_empty_value
      · exact tok_value hv
    refine ⟨_, by rw [e]; exact tok_label_assign (indent_delims l) hk.1 hne, ?_, ?_, ?_, ?_⟩
    · rw [e, List.append_assoc, List.append_assoc, hY]
      exact pinit_good (indent_delims l) hc
    · intro f hf
      simp only [nodeFuel, List.isEmpty_nil, if_true] at hf
      obtain ⟨f, rfl⟩ := Nat.exists_eq_add_of_le' hf
      have h1 := tok_op (dl := []) (R := 32 :: ((if v = [] then b!"\"\"" else tryQuoted v) ++ 10 :: R)) (op := 61)
        (by simp) (by simp)
      rw [List.nil_append] at h1
      simp only [readNode, h1, Res.bind_ok, if_true, h2, PN.clear, PN.clearAll]
    · simp [nodeFuel]
    · simp [nodeFuel, writeNode, hY, newlineStr]; omega
  | @node a cs hcs hk _ ih =>
    intro k l R hkk
    obtain ⟨_, hne, _⟩ := isValidLabel_key hkk
    obtain ⟨c, Y, hY, hc⟩ := tryQuoted_head hkk.1 hne
    have e : writeNode true k l (.mk a [] cs) ++ R = indentStr true l ++ tryQuoted k ++ 10 ::
        (indentStr true l ++ 123 :: 10 :: (writeNodes true (l + 1) cs ++ (indentStr true l ++ 125 :: 10 :: R))) := by
      simp [writeNode, writeValue, PN.hasValue, PN.empty, PN.value, PN.children, newlineStr, hcs]
    have hfu := listFuel_le hk ih (l + 1)
    have hlen : nodeFuel (.mk a [] cs) ≤ (writeNodes true (l + 1) cs).length + 3 := by
      simp [nodeFuel, hcs]; omega
    refine ⟨_, by rw [e]; exact tok_label_newline (indent_delims l) hkk.1 hne, ?_, ?_, ?_, ?_⟩
    · rw [e, List.append_assoc, hY]
      exact pinit_good (indent_delims l) hc
    · intro f hf
      simp only [nodeFuel, List.isEmpty_iff, hcs, if_false] at hf
      obtain ⟨f, rfl⟩ : ∃ g, f = g + 1 := ⟨f - 1, by omega⟩
      have h1 := tok_op (dl := indentStr true l) (op := 123)
        (R := 10 :: (writeNodes true (l + 1) cs ++ (indentStr true l ++ 125 :: 10 :: R))) (indent_delims l) (by simp)
      have h2 : pinit (10 :: (writeNodes true (l + 1) cs ++ (indentStr true l ++ 125 :: 10 :: R))) = _ :=
        pinit_delims (dl := [10]) (by decide)
      have h3 := readChildren_written hk ih (l + 1) l R f b!"{" (by decide) (by omega)
      simp only [readNode, h1, Res.bind_ok, h2, PN.clear]
      simp [h3]
    · rw [pinit_delims (indent_delims l), pinit_cons (by decide)]
      simp only [List.length_cons, List.length_append]
      omega
    · have := congrArg List.length e
      simp only [List.length_cons, List.length_append, hY] at this
      omega

theorem parse_written {cs : List (Str × PN)} (hk : ∀ kn ∈ cs, PrintableKey kn.1)
    (hn : ∀ kn ∈ cs, PrintableTree kn.2) : ∃ t s, getPropToken (pinit (writeNodes true 0 cs)) = .ok (t, s) ∧
    ∀ f, cs.length < f → parseLoop f s t = .ok (PN.clearAll cs) := by
  induction cs with
  | nil =>
    refine ⟨[], pinit [], by decide, ?_⟩
    intro f hf
    obtain ⟨f, rfl⟩ := Nat.exists_eq_add_of_le' (Nat.succ_le_of_lt hf)
    simp only [List.length_nil, parseLoop, isValidLabel, Res.bind_ok, Bool.false_eq_true, if_false,
      PN.clearAll]
  | cons kn cs ih =>
    obtain ⟨k, n⟩ := kn
    obtain ⟨t, s', h1, h2⟩ := ih (fun x hx => hk x (by simp [hx])) (fun x hx => hn x (by simp [hx]))
    have hkk : PrintableKey k := hk (k, n) (by simp)
    have hnn : PrintableTree n := hn (k, n) (by simp)
    obtain ⟨hv, _, _⟩ := isValidLabel_key hkk
    obtain ⟨s, g1, g2, g3, g4, _⟩ := readsBack hnn k 0 (writeNodes true 0 cs) hkk
    refine ⟨k, s, by rw [writeNodes]; exact g1, ?_⟩
    intro f hf
    simp at hf
    obtain ⟨f, rfl⟩ : ∃ g, f = g + 1 := ⟨f - 1, by omega⟩
    simp only [parseLoop, hv, Res.bind_ok, if_true, g3 _ g4, h1, h2 f (by omega), PN.clearAll]

/-! ### Comments -/

theorem getToken_shorter {s s' : CharStream} {t : Str} (h : s.getToken propOperators propQuotes = .ok (t, s')) :
    t.length + s'.rest.length ≤ s.rest.length := by
  have hlen : ∀ a : CharStream, a.skipDelims.rest.length ≤ a.rest.length := by
    intro a
    obtain ⟨v, hv⟩ := (skipDelims_spec a).1.1
    have := congrArg List.length hv
    simp at this; omega
  unfold getToken getTokenN at h
  split at h
  · cases hl : tokenLoop s.delims propOperators propQuotes (s.rest.length + 2) [] [] s.rest with
    | ok r =>
      obtain ⟨t', r⟩ := r
      rw [hl] at h
      simp at h
      obtain ⟨rfl, rfl⟩ := h
      have := tokenLoop_length _ _ _ _ _ _ _ _ hl
      have := hlen { s with rest := r }
      simp at *; omega
    | throws e => rw [hl] at h; cases h
    | ub => rw [hl] at h; cases h
    | diverges => rw [hl] at h; cases h
  · simp at h
    obtain ⟨rfl, rfl⟩ := h
    simpa using hlen s

theorem getLine_shorter (s : CharStream) : s.getLine.2.rest.length ≤ s.rest.length := by
  have key : ∀ k, (s.processEnd k).rest.length ≤ s.rest.length := by
    intro k
    unfold processEnd
    split
    · simp
    · obtain ⟨v, hv⟩ := (skipDelims_spec { s with rest := s.rest.drop k }).1.1
      have := congrArg List.length hv
      simp at this ⊢; omega
  exact key _

/-- The bound on the number of comments does not matter. -/
theorem getPropTokenN_fuel (n : Nat) : ∀ (m : Nat) (s : CharStream), s.rest.length < n → s.rest.length < m →
    getPropTokenN n s = getPropTokenN m s := by
  induction n with
  | zero => intro m s h; omega
  | succ n ih =>
    intro m s hn hm
    cases m with
    | zero => omega
    | succ m =>
      simp only [getPropTokenN]
      cases h : s.getToken propOperators propQuotes with
      | ok r =>
        obtain ⟨t, s'⟩ := r
        simp only [Res.bind_ok]
        by_cases ht : t = b!"%"
        · have := getToken_shorter h
          have h2 := getLine_shorter s'
          rw [if_pos ht, if_pos ht]
          rw [ht] at this
          simp at this
          exact ih m _ (by omega) (by omega)
        · rw [if_neg ht, if_neg ht]
      | throws e => rfl
      | ub => rfl
      | diverges => rfl

/-- A comment: the `%`, delimiters (even whole empty lines), then a line. -/
theorem getPropToken_comment {dl u R : Str} (hdl : ∀ d ∈ dl, strchr propDelims d = true)
    (hu : ∀ c ∈ u, c ≠ 0 ∧ c ≠ 13 ∧ c ≠ 10) (hh : ∃ c ∈ u.head?, strchr propDelims c = false)
    (hR : ∀ c ∈ R.head?, c = 10 ∨ c = 13) :
    getPropToken (pinit (37 :: (dl ++ (u ++ R)))) = getPropToken (pinit R) := by
  obtain ⟨c, hc, hd⟩ := hh
  cases u with
  | nil => simp at hc
  | cons c' Y =>
  simp at hc; subst hc
  have h1 : (pinit (37 :: (dl ++ (c' :: Y ++ R)))).getToken propOperators propQuotes =
      .ok ([37], pinit (c' :: Y ++ R)) := by
    rw [pinit_cons (by decide), getToken_of (n := 1) (t := [37]) (r := dl ++ (c' :: Y ++ R)) rfl
      (by
        rw [tokenLoop_op (show strchr propDelims 37 = false by decide) (by decide) (by decide)]; rfl),
      ← pinit_delims hdl]
    rfl
  have htw : (c' :: Y ++ R).takeWhile (fun c => c != 0 && c != 13 && c != 10) = c' :: Y := by
    apply takeWhile_append_stop
    · intro x hx
      have := hu x hx
      simp [this]
    · intro x hx
      rcases hR x hx with rfl | rfl <;> decide
  have h2 : (pinit (c' :: Y ++ R)).getLine.2 = pinit R := by
    rw [List.cons_append, pinit_cons hd]
    simp only [getLine]
    rw [← List.cons_append, htw]
    simp [processEnd, pinit, init]
  have hlen : (pinit R).rest.length < (pinit (37 :: (dl ++ (c' :: Y ++ R)))).rest.length := by
    have := getToken_shorter h1
    have := getLine_shorter (pinit (c' :: Y ++ R))
    rw [h2] at this
    simp at *; omega
  conv => lhs; rw [getPropToken, getPropTokenN]
  simp only [h1, Res.bind_ok, if_true, h2]
  exact getPropTokenN_fuel _ _ _ hlen (Nat.lt_succ_self _)

theorem getPropToken_comment_line {w R : Str} (hw : ∀ c ∈ w, c ≠ 0 ∧ c ≠ 13 ∧ c ≠ 10)
    (hv : ∃ c ∈ w, c ≠ 9 ∧ c ≠ 11 ∧ c ≠ 59) (hR : ∀ c ∈ R.head?, c = 10 ∨ c = 13) :
    getPropToken (pinit (b!"%" ++ w ++ R)) = getPropToken (pinit R) := by
  have hd : ∀ c ∈ w, strchr propDelims c = true ↔ ¬ (c ≠ 9 ∧ c ≠ 11 ∧ c ≠ 59) := by
    intro c hc
    have := hw c hc
    rw [strchr_iff]
    simp [propDelims, this]
    by_cases h9 : c = 9 <;> by_cases h11 : c = 11 <;> simp [h9, h11]
  have hsplit := List.takeWhile_append_dropWhile (p := strchr propDelims) (l := w)
  have hmem : ∀ c ∈ w.dropWhile (strchr propDelims), c ∈ w := fun c hc => by
    rw [← hsplit]; exact List.mem_append_right _ hc
  have hdel : ∀ c ∈ w.takeWhile (strchr propDelims), strchr propDelims c = true := by
    intro c hc
    have := List.all_takeWhile (p := strchr propDelims) (l := w)
    exact List.all_eq_true.1 this c hc
  have hhead : ∃ c ∈ (w.dropWhile (strchr propDelims)).head?, strchr propDelims c = false := by
    have h1 := List.head?_dropWhile_not (strchr propDelims) w
    cases h : w.dropWhile (strchr propDelims) with
    | nil =>
      obtain ⟨c, hc, hc'⟩ := hv
      rw [h, List.append_nil] at hsplit
      rw [← hsplit] at hc
      exact absurd hc' ((hd c (by rw [← hsplit]; exact hc)).1 (hdel c hc))
    | cons c cs =>
      rw [h] at h1
      exact ⟨c, by simp, by simpa using h1⟩
  have := getPropToken_comment hdel (fun c hc => hw c (hmem c hc)) hhead hR
  rw [← List.append_assoc, hsplit] at this
  simpa using this

/-! ### Whole files -/

theorem quoteChar_ne_zero : ∀ c : Byte, ∀ d ∈ quoteChar c, c ≠ 0 → d ≠ 0 := by
  apply forall_byte
  decide +kernel

theorem tryQuoted_ne_zero {s : Str} (hs : Printable s) : ∀ c ∈ tryQuoted s, c ≠ 0 := by
  have h0 : ∀ c ∈ s, c ≠ 0 := by
    rintro c hc rfl
    have := (hs.1 0 hc).1
    simp at this
  intro c hc
  rw [tryQuoted] at hc
  split at hc
  · simp only [quoted, List.mem_append, List.mem_cons, List.not_mem_nil, or_false, List.mem_flatMap] at hc
    rcases hc with (rfl | ⟨a, ha, hc⟩) | rfl
    · decide
    · exact quoteChar_ne_zero a c hc (h0 a ha)
    · decide
  · exact h0 c hc

theorem writeNodes_ne_zero {b : Bool} {cs : List (Str × PN)} (hk : ∀ kn ∈ cs, PrintableKey kn.1)
    (hn : ∀ kn ∈ cs, ∀ k l, PrintableKey k → ∀ c ∈ writeNode b k l kn.2, c ≠ 0) (l : Nat) :
    ∀ c ∈ writeNodes b l cs, c ≠ 0 := by
  induction cs with
  | nil => simp [writeNodes]
  | cons kn r ih =>
    obtain ⟨k, n⟩ := kn
    intro c hc
    rw [writeNodes, List.mem_append] at hc
    rcases hc with hc | hc
    · exact hn (k, n) (by simp) k l (hk (k, n) (by simp)) c hc
    · exact ih (fun x hx => hk x (by simp [hx])) (fun x hx => hn x (by simp [hx])) c hc

theorem indent_ne_zero (b : Bool) (l : Nat) : ∀ c ∈ indentStr b l, c ≠ 0 := by
  intro c hc
  cases b <;> simp [indentStr] at hc
  rw [hc.2]; decide

theorem newline_ne_zero (b : Bool) : ∀ c ∈ newlineStr b, c ≠ 0 := by cases b <;> decide

theorem writeValue_ne_zero (b : Bool) {n : PN} (hn : Printable n.value) : ∀ c ∈ writeValue b n, c ≠ 0 := by
  have h1 : ∀ c ∈ (if b then b!" = " else b!"="), c ≠ 0 := by cases b <;> decide
  have h2 : ∀ c ∈ b!"\"\"", c ≠ 0 := by decide
  intro c hc
  unfold writeValue at hc
  split at hc
  · rcases List.mem_append.1 hc with hc | hc
    · exact h1 c hc
    · split at hc
      · exact h2 c hc
      · exact tryQuoted_ne_zero hn c hc
  · simp at hc

theorem writeNode_ne_zero {b : Bool} {n : PN} (hn : PrintableTree n) : ∀ k l, PrintableKey k →
    ∀ c ∈ writeNode b k l n, c ≠ 0 := by
  induction hn with
  | leaf hv =>
    intro k l hk c hc
    simp only [writeNode, List.isEmpty_nil, if_true, List.append_nil, List.mem_append] at hc
    rcases hc with ((hc | hc) | hc) | hc
    · exact indent_ne_zero b l c hc
    · exact tryQuoted_ne_zero hk.1 c hc
    · exact writeValue_ne_zero b (by exact hv) c hc
    · exact newline_ne_zero b c hc
  | node hcs hk' _ ih =>
    intro k l hk c hc
    simp only [writeNode, List.isEmpty_iff, hcs, if_false, List.mem_append] at hc
    rcases hc with (((hc | hc) | hc) | hc) | (((((hc | hc) | hc) | hc) | hc) | hc) | hc
    · exact indent_ne_zero b l c hc
    · exact tryQuoted_ne_zero hk.1 c hc
    · refine writeValue_ne_zero b ?_ c hc; show Printable []; decide
    · exact newline_ne_zero b c hc
    · exact indent_ne_zero b l c hc
    · simp at hc; subst hc; decide
    · exact newline_ne_zero b c hc
    · exact writeNodes_ne_zero hk' ih _ c hc
    · exact indent_ne_zero b l c hc
    · simp at hc; subst hc; decide
    · exact newline_ne_zero b c hc

theorem saved_ne_zero {b : Bool} {cs : List (Str × PN)} (hk : ∀ kn ∈ cs, PrintableKey kn.1)
    (hn : ∀ kn ∈ cs, PrintableTree kn.2) : ∀ c ∈ writeNodes b 0 cs, c ≠ 0 :=
  writeNodes_ne_zero hk (fun kn h => writeNode_ne_zero (hn kn h)) 0

theorem pinit_length (x : Str) : (pinit x).rest.length ≤ x.length := by
  obtain ⟨v, hv⟩ := (skipDelims_spec { rest := x, delims := propDelims }).1.1
  have := congrArg List.length hv
  simp at this
  simp only [pinit, init]; omega

theorem length_le_writeNodes {cs : List (Str × PN)} (hk : ∀ kn ∈ cs, PrintableKey kn.1) :
    cs.length ≤ (pinit (writeNodes true 0 cs)).rest.length := by
  have key : ∀ ds : List (Str × PN), (∀ kn ∈ ds, PrintableKey kn.1) → ds.length ≤ (writeNodes true 0 ds).length ∧
      pinit (writeNodes true 0 ds) = if ds = [] then pinit [] else { rest := writeNodes true 0 ds, delims := propDelims } := by
    intro ds hds
    induction ds with
    | nil => simp [writeNodes]
    | cons kn r ih =>
      obtain ⟨k, n⟩ := kn
      have hkk : PrintableKey k := hds (k, n) (by simp)
      obtain ⟨c, Y, hY, hc⟩ := tryQuoted_head hkk.1 (isValidLabel_key hkk).2.1
      have h1 := (ih fun x hx => hds x (by simp [hx])).1
      obtain ⟨a, v, ds⟩ := n
      obtain ⟨Z, hZ⟩ : ∃ Z, writeNodes true 0 ((k, .mk a v ds) :: r) = c :: Z ∧ r.length ≤ Z.length := by
        obtain ⟨W, hW⟩ : ∃ W, writeNode true k 0 (.mk a v ds) = c :: W := by
          simp only [writeNode, indentStr, hY, List.replicate_zero, if_true, List.nil_append, List.cons_append]
          exact ⟨_, rfl⟩
        refine ⟨W ++ writeNodes true 0 r, by rw [writeNodes, hW]; rfl, ?_⟩
        simp only [List.length_append]; omega
      rw [hZ.1]
      refine ⟨by simpa using hZ.2, ?_⟩
      rw [if_neg (by simp), pinit_cons hc]
  have := key cs hk
  rw [this.2]
  split
  · rename_i h; simp [h]
  · exact this.1

theorem parseStream_written {cs : List (Str × PN)} (hk : ∀ kn ∈ cs, PrintableKey kn.1)
    (hn : ∀ kn ∈ cs, PrintableTree kn.2) {s : CharStream}
    (hs : getPropToken s = getPropToken (pinit (writeNodes true 0 cs)))
    (hl : (pinit (writeNodes true 0 cs)).rest.length ≤ s.rest.length) :
    parseStream s = .ok (.mk false [] (PN.clearAll cs)) := by
  obtain ⟨t, s', h1, h2⟩ := parse_written hk hn
  have := length_le_writeNodes hk
  rw [parseStream, hs, h1]
  simp only [Res.bind_ok]
  rw [h2 _ (by omega)]
  rfl

theorem parseProp_written {a : Bool} {cs : List (Str × PN)} (hk : ∀ kn ∈ cs, PrintableKey kn.1)
    (hn : ∀ kn ∈ cs, PrintableTree kn.2) :
    parseProp (savedProp true (.mk a [] cs)) = .ok (.mk false [] (PN.clearAll cs)) := by
  rw [parseProp, ofCStr, savedProp, PN.children, cstr_of_ne_zero (saved_ne_zero hk hn)]
  exact parseStream_written hk hn rfl (Nat.le_refl _)

theorem parseProp_comment_written {a : Bool} {v w : Str} {cs : List (Str × PN)} (hw : ∀ c ∈ w, c ≠ 0 ∧ c ≠ 13 ∧ c ≠ 10)
    (hv : ∃ c ∈ w, c ≠ 9 ∧ c ≠ 11 ∧ c ≠ 59) (hk : ∀ kn ∈ cs, PrintableKey kn.1)
    (hn : ∀ kn ∈ cs, PrintableTree kn.2) :
    parseProp (b!"%" ++ w ++ b!"\n" ++ savedProp true (.mk a v cs)) = .ok (.mk false [] (PN.clearAll cs)) := by
  rw [parseProp, ofCStr, savedProp, PN.children, cstr_of_ne_zero]
  · have h1 := getPropToken_comment_line (R := b!"\n" ++ writeNodes true 0 cs) hw hv (by simp)
    have h2 : pinit (b!"\n" ++ writeNodes true 0 cs) = _ := pinit_delims (dl := b!"\n") (by decide)
    rw [h2, ← List.append_assoc] at h1
    refine parseStream_written hk hn h1 ?_
    have h3 := pinit_length (writeNodes true 0 cs)
    simp only [List.cons_append, List.nil_append]
    rw [show init (37 :: (w ++ [10] ++ writeNodes true 0 cs)) propDelims = _ from pinit_cons (by decide)]
    simp
    omega
  · intro c hc
    simp only [List.mem_append, List.mem_cons, List.not_mem_nil, or_false] at hc
    rcases hc with ((rfl | hc) | rfl) | hc
    · decide
    · exact (hw c hc).1
    · decide
    · exact saved_ne_zero hk hn c hc

/-! ### The compact form -/

theorem tok_label_eq {k R : Str} (hk : Printable k) (hne : k ≠ []) :
    getPropToken (pinit (tryQuoted k ++ 61 :: R)) = .ok (k, pinit (61 :: R)) := by
  obtain ⟨c, Y, hY, hc⟩ := tryQuoted_head hk hne
  obtain ⟨N, m, acc, p, h1, h2⟩ := tokenLoop_tryQuoted hk 1 [] (61 :: R) (by simp)
  have e : tokenLoop propDelims propOperators propQuotes (1 + m + 1) acc p (61 :: R) = .ok (k, 61 :: R) := by
    rw [tokenLoop_op (by decide) (by decide) (by decide), if_neg]
    · rcases h2 with ⟨rfl, rfl⟩ | ⟨rfl, rfl⟩ <;> simp
    · rcases h2 with ⟨rfl, rfl⟩ | ⟨rfl, rfl⟩ <;> simp [hne]
  rw [e] at h1
  have := getPropToken_step (dl := []) (c := c) (Y := Y ++ 61 :: R) (v := k) (by simp) hc
    (by rw [← List.cons_append, ← hY]; exact h1) (printable_ne_percent hk)
    (by simpa using trim_trimmed [] [] hk.2.1 (by simp) (by simp))
  rw [← this, ← List.cons_append, ← hY]
  simp

theorem tok_last_value {v : Str} (hv : Printable v) (hne : v ≠ []) :
    getPropToken (pinit (tryQuoted v ++ [32])) = .ok (v, pinit []) := by
  obtain ⟨c, Y, hY, hc⟩ := tryQuoted_head hv hne
  obtain ⟨N, m, acc, p, h1, h2⟩ := tokenLoop_tryQuoted hv 1 [] [32] (by simp)
  have e : tokenLoop propDelims propOperators propQuotes (1 + m + 1) acc p [32] = .ok (v ++ [32], []) := by
    have e1 : 1 + m + 1 = m + 1 + 1 := by omega
    rw [e1, tokenLoop_plain (by decide) (by decide) (by decide)]
    rcases h2 with ⟨rfl, rfl⟩ | ⟨rfl, rfl⟩ <;> simp [tokenLoop]
  rw [e] at h1
  have := getPropToken_step (dl := []) (c := c) (Y := Y ++ [32]) (v := v) (by simp) hc
    (by rw [← List.cons_append, ← hY]; exact h1)
    (by cases v with
      | nil => exact absurd rfl hne
      | cons a l => simp)
    (by simpa using trim_trimmed [] [32] hv.2.1 (by simp) (by simp [IsSpace]))
  rw [← this, ← List.cons_append, ← hY]
  simp

theorem parse_compact_single {k v : Str} (hk : PrintableKey k) (hv : Printable v) :
    parseProp (savedProp false (.mk false [] [(k, .leaf v)])) = .ok (.mk false [] [(k, .leaf v)]) := by
  obtain ⟨hval, hne, _⟩ := isValidLabel_key hk
  have e : writeNodes false 0 [(k, .leaf v)] = tryQuoted k ++ 61 :: ((if v = [] then b!"\"\"" else tryQuoted v) ++ [32]) := by
    cases v <;> simp [writeNodes, writeNode, writeValue, PN.leaf, PN.hasValue, PN.empty, PN.value, PN.children,
      newlineStr, indentStr]
  rw [parseProp, ofCStr, savedProp, PN.children, cstr_of_ne_zero (saved_ne_zero (by simpa using hk)
    (by simpa [PN.leaf] using PrintableTree.leaf hv)), e]
  have h1 := tok_label_eq (R := (if v = [] then b!"\"\"" else tryQuoted v) ++ [32]) hk.1 hne
  have h2 := tok_op (dl := []) (op := 61) (R := (if v = [] then b!"\"\"" else tryQuoted v) ++ [32]) (by simp) (by simp)
  have h3 : getPropToken (pinit ((if v = [] then b!"\"\"" else tryQuoted v) ++ [32])) = .ok (v, pinit []) := by
    split
    · rename_i h; subst h; decide
    · rename_i h; exact tok_last_value hv h
  have h4 : getPropToken (pinit []) = .ok ([], pinit []) := by decide
  have hnil : isValidLabel [] = .ok false := rfl
  obtain ⟨c, Y, hY, hc⟩ := tryQuoted_head hk.1 hne
  have hl : ∃ f, (pinit (tryQuoted k ++ 61 :: ((if v = [] then b!"\"\"" else tryQuoted v) ++ [32]))).rest.length = f + 1 := by
    rw [hY, List.cons_append, pinit_cons hc]; exact ⟨_, rfl⟩
  obtain ⟨f, hf⟩ := hl
  rw [List.nil_append] at h2
  simp only [parseStream]
  rw [hf]
  simp only [h1, Res.bind_ok, parseLoop, hval, if_true, readNode, h2, h3, h4, hnil,
    Bool.false_eq_true, if_false, PN.leaf]

theorem parse_compact_siblings {k1 v1 k2 v2 : Str} (hk1 : PrintableKey k1) (hv1 : Printable v1) (hk2 : PrintableKey k2)
    (hv2 : Printable v2) (hne : v1 ≠ []) (p1 : ¬ ∃ c ∈ v1, ForcesQuotes c) (p2 : ¬ ∃ c ∈ k2, ForcesQuotes c) :
    parseProp (savedProp false (.mk false [] [(k1, .leaf v1), (k2, .leaf v2)])) =
      .ok (.mk false [] [(k1, .leaf (v1 ++ b!" " ++ k2))]) := by
  obtain ⟨hval, hne1, _⟩ := isValidLabel_key hk1
  obtain ⟨_, hne2, _⟩ := isValidLabel_key hk2
  have q1 : tryQuoted v1 = v1 := by
    rw [tryQuoted, if_neg]; rw [needsQuotes_iff hv1.1]; exact p1
  have q2 : tryQuoted k2 = k2 := by
    rw [tryQuoted, if_neg]; rw [needsQuotes_iff hk2.1.1]; exact p2
  obtain ⟨T, e⟩ : ∃ T, writeNodes false 0 [(k1, .leaf v1), (k2, .leaf v2)] =
      tryQuoted k1 ++ 61 :: (v1 ++ 32 :: (k2 ++ 61 :: T)) := by
    refine ⟨(if v2 = [] then b!"\"\"" else tryQuoted v2) ++ [32], ?_⟩
    cases v2 <;> simp [writeNodes, writeNode, writeValue, PN.leaf, PN.hasValue, PN.empty, PN.value, PN.children,
      newlineStr, indentStr, q1, q2, hne]
  have plain : ∀ s : Str, Printable s → (¬ ∃ c ∈ s, ForcesQuotes c) → ∀ c ∈ s, strchr propDelims c = false ∧
      strchr propQuotes c = false ∧ strchr propOperators c = false := by
    intro s hs hq c hc
    rcases hs.2.2 with h | h
    · exact absurd h hq
    · exact plain_char (fun hf => hq ⟨c, hc, hf⟩) (h c hc)
  rw [parseProp, ofCStr, savedProp, PN.children, cstr_of_ne_zero (saved_ne_zero
    (by simp only [List.mem_cons, List.not_mem_nil, or_false]; rintro kn (rfl | rfl) <;> assumption)
    (by
      simp only [List.mem_cons, List.not_mem_nil, or_false]
      rintro kn (rfl | rfl)
      · exact .leaf hv1
      · exact .leaf hv2)), e]
  have h1 := tok_label_eq (R := v1 ++ 32 :: (k2 ++ 61 :: T)) hk1.1 hne1
  have h2 := tok_op (dl := []) (op := 61) (R := v1 ++ 32 :: (k2 ++ 61 :: T)) (by simp) (by simp)
  have h3 : getPropToken (pinit (v1 ++ 32 :: (k2 ++ 61 :: T))) = .ok (v1 ++ 32 :: k2, pinit (61 :: T)) := by
    cases hv1' : v1 with
    | nil => exact absurd hv1' hne
    | cons c Y =>
      have hl : tokenLoop propDelims propOperators propQuotes (2 + k2.length + 1 + v1.length) [] []
          (v1 ++ 32 :: (k2 ++ 61 :: T)) = .ok (v1 ++ 32 :: k2, 61 :: T) := by
        rw [tokenLoop_plains (plain v1 hv1 p1), tokenLoop_plain (by decide) (by decide) (by decide),
          tokenLoop_plains (plain k2 hk2.1 p2), tokenLoop_op (by decide) (by decide) (by decide), if_neg (by simp)]
        simp
      have htr : Trimmed (v1 ++ 32 :: k2) := by
        refine ⟨?_, ?_⟩
        · have := hv1.2.1.1
          rw [hv1'] at this ⊢
          simpa using this
        · have := hk2.1.2.1.2
          rw [List.getLast?_append, List.getLast?_cons]
          cases hk : k2.getLast? with
          | none => simp at hk; exact absurd hk hne2
          | some x => rw [hk] at this; simpa using this
      have hc : strchr propDelims c = false := (plain v1 hv1 p1 c (by simp [hv1'])).1
      rw [hv1'] at hl htr
      have := getPropToken_step (dl := []) (c := c) (by simp) hc hl
        (by cases Y <;> simp) (by simpa using trim_trimmed [] [] htr (by simp) (by simp))
      simpa using this
  have h4 := tok_op (dl := []) (op := 61) (R := T) (by simp) (by simp)
  have h5 : isValidLabel [61] = .ok false := by decide
  obtain ⟨c, Y, hY, hc⟩ := tryQuoted_head hk1.1 hne1
  have hl : ∃ f, (pinit (tryQuoted k1 ++ 61 :: (v1 ++ 32 :: (k2 ++ 61 :: T)))).rest.length = f + 1 := by
    rw [hY, List.cons_append, pinit_cons hc]; exact ⟨_, rfl⟩
  obtain ⟨f, hf⟩ := hl
  rw [List.nil_append] at h2 h4
  simp only [parseStream]
  rw [hf]
  simp only [h1, Res.bind_ok, parseLoop, hval, if_true, readNode, h2, h3, h4, h5,
    Bool.false_eq_true, if_false, PN.leaf]
  simp

end Flut
