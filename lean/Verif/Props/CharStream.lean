import Verif.Proofs.Numbers

/-! # Property theorems for `char_stream`: C02, C13, C14, C15 -/

namespace Flut

open Spec CharStream

/-! ## C02: a quoted string is read back as one token -/

/-- A stream positioned at `quoted s`, followed by the end of the buffer or by a delimiter, yields exactly `s`
and is then positioned at the first byte that is not a delimiter. -/
theorem C02_quoted_token (st : CharStream) (s dels rest operators quotes : Str) (hs : Ascii s)
    (hgood : st.fail = false ∧ st.eof = false)
    (hrest : st.rest = quoted s ++ dels ++ rest)
    (hdel : ∀ c ∈ dels, c ∈ st.delims)
    (hend : dels = [] → rest = [])
    (hfirst : ∀ c ∈ rest.head?, c ≠ 0 ∧ c ∉ st.delims)
    (hd : (34 : Byte) ∉ st.delims) (hq : (34 : Byte) ∈ quotes) :
    st.getToken operators quotes =
      .ok (s, { st with rest := rest, eof := decide (rest = []) }) := by
  have hg : st.good = true := by simp [good, hgood]
  have hskip : ({ st with rest := dels ++ rest } : CharStream).skipDelims =
      { st with rest := rest, eof := decide (rest = []) } := by
    have : (dels ++ rest).dropWhile (strchr st.delims) = rest := by
      rw [List.dropWhile_append_of_pos (fun c hc => by simpa using strchr_iff.2 (Or.inr (hdel c hc)))]
      cases rest with
      | nil => rfl
      | cons x xs =>
        have := hfirst x (by simp)
        exact List.dropWhile_cons_of_neg (by simp [strchr_false.2 this])
    simp only [skipDelims, this, testEof]
    cases rest with
    | nil => simp
    | cons x xs => simp [hgood]
  have hl : ∃ n, tokenLoop st.delims operators quotes n [] [] st.rest = .ok (s, dels ++ rest) := by
    refine ⟨0 + s.length + 2, ?_⟩
    rw [hrest, List.append_assoc, tokenLoop_quoted hs hd hq]
    split
    next h => simp [h]
    next h =>
      cases dels with
      | nil => simp [hend rfl] at h
      | cons x xs =>
        rw [List.cons_append, tokenLoop_delim (strchr_iff.2 (Or.inr (hdel x (by simp))))]
        simp
  obtain ⟨n, hn⟩ := hl
  rw [getToken_of hg hn, hskip]

/-- The same when an operator follows directly, for non-empty `s`: the token ends before the operator. -/
theorem C02_quoted_before_operator (st : CharStream) (s rest operators quotes : Str) (op : Byte) (hs : Ascii s)
    (hne : s ≠ []) (hgood : st.fail = false ∧ st.eof = false)
    (hrest : st.rest = quoted s ++ op :: rest)
    (hop : op ≠ 0 ∧ op ∈ operators ∧ op ∉ quotes ∧ op ∉ st.delims)
    (hd : (34 : Byte) ∉ st.delims) (hq : (34 : Byte) ∈ quotes) :
    st.getToken operators quotes = .ok (s, { st with rest := op :: rest }) := by
  have hg : st.good = true := by simp [good, hgood]
  have e1 := strchr_false.2 ⟨hop.1, hop.2.2.2⟩
  have hl : tokenLoop st.delims operators quotes (0 + s.length + 2) [] [] st.rest = .ok (s, op :: rest) := by
    rw [hrest, tokenLoop_quoted hs hd hq, if_neg (by simp),
      tokenLoop_op e1 (strchr_false.2 ⟨hop.1, hop.2.2.1⟩) (strchr_iff.2 (Or.inr hop.2.1))]
    simp [hne]
  rw [getToken_of hg hl]
  simp [skipDelims, testEof, e1]

/-- For the empty string this is false of the code: the empty token vanishes and the operator is returned. -/
theorem C02_empty_before_operator_refuted :
    (ofCStr (quoted [] ++ b!"=x")).getToken b!"=" b!"\"" = .ok (b!"=", { ofCStr b!"x" with rest := b!"x" }) := by
  decide

example : (ofCStr (quoted b!"a \"b\"\n" ++ b!" tail")).getToken b!"={}" b!"\"'" =
    .ok (b!"a \"b\"\n", ofCStr b!"tail") := by decide

/-! ## C13: memory safety, forward movement and sticky flags -/

/-- On a 7-bit buffer no sequence of calls has undefined behaviour or throws: it ends in a state whose unread
bytes are a suffix of the buffer, and `good()` then implies that there are unread bytes; or some `get_token`
does not return (see C14). -/
theorem C13_safe (bits : Nat) (buf delims : Str) (ops : List StreamOp) (h7 : ∀ c ∈ buf, c.toNat < 128) :
    (runOps bits ops (ofString buf delims) = .diverges ∧ ∃ o q, StreamOp.token o q ∈ ops) ∨
    ∃ s, runOps bits ops (ofString buf delims) = .ok s ∧ (∃ u, buf = u ++ s.rest) ∧
      (s.fail = false ∧ s.eof = false → s.rest ≠ []) := by
  have h0 := skipDelims_spec { rest := buf, delims := delims : CharStream }
  have h70 : ∀ c ∈ (ofString buf delims).rest, c.toNat < 128 := by
    obtain ⟨u, hu⟩ := h0.1.1
    intro c hc
    refine h7 c ?_
    have hu : buf = u ++ (ofString buf delims).rest := hu
    rw [hu]; simp [hc]
  rcases runOps_spec bits ops _ h0.2 h70 with h | ⟨s, h, f, i⟩
  · exact Or.inl h
  · refine Or.inr ⟨s, h, (h0.1.trans f).1, ?_⟩
    rintro ⟨-, h2⟩ h3
    simp [i h3] at h2

/-- From any state with the end-of-buffer flag set when at the end, each call that returns moves only forward
and never clears a flag. -/
theorem C13_forward_and_sticky (bits : Nat) (op : StreamOp) (s s' : CharStream) (hi : s.rest = [] → s.eof = true)
    (h : op.run bits s = .ok s') :
    (∃ u, s.rest = u ++ s'.rest) ∧ (s.fail = true → s'.fail = true) ∧ (s.eof = true → s'.eof = true) ∧
      (s'.rest = [] → s'.eof = true) := by
  by_cases h7 : op = .str → ∀ c ∈ s.rest, c.toNat < 128
  · rcases op.run_spec bits s hi h7 with ⟨h', -⟩ | ⟨s1, h1, f, i⟩
    · rw [h] at h'; simp at h'
    · rw [h] at h1
      simp at h1
      subst h1
      exact ⟨f.1, f.2.1, f.2.2.1, i⟩
  · have hop : op = .str := by
      by_cases hop : op = .str
      · exact hop
      · exact absurd (fun h => absurd h hop) h7
    subst hop
    simp only [StreamOp.run, readStr] at h
    split at h
    · simp at h
    · simp at h
      subst h
      have := processEnd_spec s (s.rest.takeWhile fun c => c != 0 && !isSpaceC c).length hi
      exact ⟨this.1.1, this.1.2.1, this.1.2.2.1, this.2⟩

/-- Extraction into a string reads a byte ≥ 128 with `isspace`, which is undefined. -/
theorem C13_high_byte_ub : (ofString [200] : CharStream).readStr = .ub := by decide

example : runOps 64 [.token [] [34], .long, .getc, .line, .str] (ofString b!"ab 12 x y\nz") =
    .ok { ofString b!"z" with rest := [], eof := true } := by decide

/-! ## C14: termination of `get_token` -/

/-- With double and single quotes, `get_token` returns exactly when the next token has no quoted part ending in
a lone backslash at the end of the buffer. Otherwise no number of iterations is enough. -/
theorem C14_terminates_iff (s : CharStream) (operators quotes : Str) (hq : ∀ c ∈ quotes, c = 34 ∨ c = 39) :
    (∃ r, s.getToken operators quotes = .ok r) ↔
      ¬ (s.fail = false ∧ s.eof = false ∧ LoneBackslash s.delims operators quotes s.rest) := by
  by_cases hg : s.good = true
  · have hg' : s.fail = false ∧ s.eof = false := by simpa [good] using hg
    simp only [getToken, getTokenN, hg, if_true, hg', true_and]
    rcases tokenLoop_spec (d := s.delims) (o := operators) hq s.rest.length [] [] s.rest (Nat.le_refl _) with
      ⟨h1, h2⟩ | ⟨h1, t, r, h2, h3⟩
    · simp [h1, h2]
    · simp [h1, h3]
  · have hg' : ¬ (s.fail = false ∧ s.eof = false) := by
      simp [good] at hg ⊢
      intro h; simpa [h] using hg
    constructor
    · rintro - ⟨a, b, -⟩
      exact hg' ⟨a, b⟩
    · intro _
      simp [getToken, getTokenN, hg]

/-- In the excluded case the loop runs for ever (until memory is exhausted). -/
theorem C14_hangs (s : CharStream) (operators quotes : Str) (hq : ∀ c ∈ quotes, c = 34 ∨ c = 39)
    (hg : s.fail = false ∧ s.eof = false) (h : LoneBackslash s.delims operators quotes s.rest) (n : Nat) :
    s.getTokenN n operators quotes = .diverges := by
  have hg' : s.good = true := by simp [good, hg]
  rcases tokenLoop_spec (d := s.delims) (o := operators) hq s.rest.length [] [] s.rest (Nat.le_refl _) with
    ⟨-, h2⟩ | ⟨h1, -⟩
  · simp [getTokenN, hg', h2]
  · exact absurd h h1

/-- The iteration bound used in the model is large enough: a larger one gives the same result. -/
theorem C14_bound (s : CharStream) (operators quotes : Str) (n : Nat) (r : Str × CharStream)
    (h : s.getTokenN n operators quotes = .ok r) : s.getToken operators quotes = .ok r := by
  by_cases hg : s.good = true
  · simp only [getToken, getTokenN, hg, if_true] at h ⊢
    obtain ⟨x, hx, h⟩ := Res.bind_eq_ok.1 h
    rw [(tokenLoop_enough _ _ _ _ _ _ _ _ hx).1 _ (by omega)]
    exact h
  · simpa [getToken, getTokenN, hg] using h

/-- In particular it returns on every buffer that does not end in a backslash. -/
theorem C14_no_final_backslash (s : CharStream) (operators quotes : Str) (hq : ∀ c ∈ quotes, c = 34 ∨ c = 39)
    (h : s.rest.getLast? ≠ some 92) : ∃ r, s.getToken operators quotes = .ok r := by
  rw [C14_terminates_iff s operators quotes hq]
  rintro ⟨-, -, hl⟩
  exact h (loneBackslash_getLast hl)

/-- A text that hangs: an open quote, then anything without quote or backslash, then a backslash. -/
theorem C14_hang_family (w : Str) (hw : ∀ c ∈ w, c ≠ 34 ∧ c ≠ 92) (n : Nat) :
    (ofString (34 :: w ++ [92])).getTokenN n [] [34] = .diverges := by
  have e : ofString (34 :: w ++ [92]) = { rest := 34 :: w ++ [92], delims := defaultDelims } := by
    simp [ofString, init, skipDelims, testEof, strchr, defaultDelims]
  rw [e]
  refine C14_hangs _ [] [34] (by simp) ⟨rfl, rfl⟩ (.here (by decide) (by simp [defaultDelims]) (by simp) ?_) n
  show scanQuote 34 (w ++ [92]) = _
  rw [scanQuote_plains hw]
  decide

example : LoneBackslash defaultDelims [] [34] b!"ab\"c\\\\\\" :=
  .skip (by decide) (by decide) (by decide) (by decide) (.skip (by decide) (by decide) (by decide) (by decide)
    (.here (by decide) (by decide) (by decide) (by decide)))
example : ∃ r, (ofString b!"\"c\\\\\"d").getToken [] [34] = .ok r := ⟨_, rfl⟩

/-! ## C15: reading integers -/

/-- A text of in-range integers, preceded by any delimiters and separated by delimiters, is read back by
`str_to_vec` as exactly those integers, or the first `m` of them. The delimiters may be any characters other
than digits, signs and NUL. -/
theorem C15_str_to_vec (bits : Nat) (delims pre text : Str) (xs : List Int) (max : Option Nat)
    (hd : ∀ d ∈ delims, d ≠ 0 ∧ d ≠ 43 ∧ d ≠ 45 ∧ ¬ (48 ≤ d.toNat ∧ d.toNat ≤ 57))
    (hpre : ∀ d ∈ pre, d ∈ delims) (h : NumText delims text xs)
    (hr : ∀ x ∈ xs, -(2 ^ (bits - 1) : Int) ≤ x ∧ x < 2 ^ (bits - 1)) :
    strToVec bits (pre ++ text) max delims =
      .ok (match max with | none => xs | some m => xs.take m) := by
  have hh := NumText.head hd h
  have hz : cstr (pre ++ text) = pre ++ text := cstr_of_ne_zero (by
    intro c hc
    rcases List.mem_append.1 hc with hc | hc
    · exact (hd c (hpre c hc)).1
    · exact hh.2.2 c hc)
  have e : ofCStr (pre ++ text) delims = numStream delims text := by
    rw [ofCStr, hz, init, skip_numText hd h hpre]
  simp only [strToVec, e]
  rw [readVec_numText hd max _ text xs [] h (by simp [numStream]) hr (by simp)]
  cases max <;> simp

/-- `scan_str` into `k` variables stores the first `k` integers of the text. It returns `k` when more numbers
remain, and otherwise one less than the number of integers read. -/
theorem C15_scan_str (bits k : Nat) (pre text : Str) (xs : List Int) (hne : xs ≠ [])
    (hpre : ∀ d ∈ pre, d ∈ defaultDelims) (h : NumText defaultDelims text xs)
    (hr : ∀ x ∈ xs, -(2 ^ (bits - 1) : Int) ≤ x ∧ x < 2 ^ (bits - 1)) :
    scanStr bits (pre ++ text) k = (if k < xs.length then k else xs.length - 1, xs.take k) := by
  have hd : NumDelims defaultDelims := by
    intro d hd
    simp [defaultDelims] at hd
    rcases hd with rfl | rfl | rfl | rfl | rfl | rfl <;> decide
  have hh := NumText.head hd h
  have hz : cstr (pre ++ text) = pre ++ text := cstr_of_ne_zero (by
    intro c hc
    rcases List.mem_append.1 hc with hc | hc
    · exact (hd c (hpre c hc)).1
    · exact hh.2.2 c hc)
  have e : ofCStr (pre ++ text) defaultDelims = numStream defaultDelims text := by
    rw [ofCStr, hz, init, skip_numText hd h hpre]
  rw [scanStr, e, scanImpl_numText hd k text xs h hne hr]
  have : 0 < xs.length := List.length_pos_iff.2 hne
  congr 1
  split <;> omega

/-- So the count is wrong when the text holds exactly as many numbers as variables. -/
theorem C15_scan_count_refuted : (scanStr 64 b!"1 2" 2).1 = 1 ∧ (scanStr 64 b!"1 2" 2).2 = [1, 2] := by decide

example : NumText defaultDelims b!"-12 +7\t\n0030 " [-12, 7, 30] :=
  .cons (w := b!"-12") (sep := b!" ") (.minus (ds := b!"12") (by decide)) (by decide) (by decide)
    (.cons (w := b!"+7") (sep := b!"\t\n") (.plus (ds := b!"7") (by decide)) (by decide) (by decide)
      (.cons (w := b!"0030") (sep := b!" ") (rest := []) (.pos (ds := b!"0030") (by decide)) (by decide) (by decide) .nil))
example : strToVec 64 b!" -12 +7\t\n0030 " none = .ok [-12, 7, 30] := by decide

end Flut
