import Verif.Proofs.PropRoundTrip
import Verif.Proofs.PropApi
import Verif.Spec.Cut

/-! # Reading a beginning of written prop text -/

namespace Flut

open Spec CharStream

theorem prefix_append_cases {u a b : Str} (h : u <+: a ++ b) : u <+: a ∨ ∃ u', u = a ++ u' ∧ u' <+: b := by
  rcases List.prefix_or_prefix_of_prefix h (List.prefix_append a b) with h1 | ⟨u', rfl⟩
  · exact .inl h1
  · exact .inr ⟨u', rfl, (List.prefix_append_right_inj a).1 h⟩

theorem prefix_append_cases' {u a b : Str} (h : u <+: a ++ b) :
    (u <+: a ∧ u.length < a.length) ∨ ∃ u', u = a ++ u' ∧ u' <+: b := by
  rcases prefix_append_cases h with h1 | h1
  · by_cases hl : u.length < a.length
    · exact .inl ⟨h1, hl⟩
    · exact .inr ⟨[], by rw [List.append_nil]; exact h1.eq_of_length (by have := h1.length_le; omega), List.nil_prefix⟩
  · exact .inr h1

theorem prefix_cons_cases {u b : Str} {c : Byte} (h : u <+: c :: b) : u = [] ∨ ∃ u', u = c :: u' ∧ u' <+: b := by
  cases u with
  | nil => exact .inl rfl
  | cons d u =>
    obtain ⟨rfl, h'⟩ := List.cons_prefix_cons.1 h
    exact .inr ⟨u, rfl, h'⟩

/-! ### Quoted text -/

/-- An escape that has lost its end, but not only a backslash is left. -/
def cutEscOk (c : Byte) : Bool :=
  ((quoteChar c).length ≤ 4 && ((quoteChar c).length == 1 || (quoteChar c).take 1 == [92])) &&
  [2, 3].all fun i => decide ((quoteChar c).length ≤ i) ||
    (match decodeChar ((quoteChar c).take i) with
      | .ok (e, j) => j == i && decide (c.toNat < 32) && (e == 63 || (decide (1 ≤ e.toNat) && decide (e.toNat ≤ 3)))
      | _ => false)

theorem cutEsc_table : ∀ c : Byte, (decide (1 ≤ c.toNat) && decide (c.toNat ≤ 127)) = true → cutEscOk c = true := by
  apply forall_byte
  decide +kernel

theorem cutEsc {c : Byte} (hc : 1 ≤ c.toNat ∧ c.toNat ≤ 127) {q : Str} (hq : q <+: quoteChar c)
    (hl : q.length < (quoteChar c).length) (h0 : q ≠ []) (h1 : q ≠ [92]) :
    ∃ e, decodeChar q = .ok (e, q.length) ∧ q.head? = some 92 ∧ c.toNat < 32 ∧ (e = 63 ∨ (1 ≤ e.toNat ∧ e.toNat ≤ 3)) := by
  have t := cutEsc_table c (by simp [hc])
  simp only [cutEscOk, Bool.and_eq_true, decide_eq_true_eq, Bool.or_eq_true, beq_iff_eq, List.all_cons, List.all_nil,
    Bool.and_true] at t
  obtain ⟨⟨t1, t2⟩, t3, t4⟩ := t
  have eq : q = (quoteChar c).take q.length := List.prefix_iff_eq_take.1 hq
  have hlen : q.length ≠ 0 := by simpa using h0
  have t2' : (quoteChar c).take 1 = [92] := by
    rcases t2 with t2 | t2
    · omega
    · exact t2
  have hh : q.head? = some 92 := by
    rw [eq]
    cases hqc : quoteChar c with
    | nil => rw [hqc] at t2'; cases t2'
    | cons a b =>
      rw [hqc] at t2'
      simp at t2'
      rw [t2', List.head?_take]
      simp [hlen]
  have hlen1 : q.length ≠ 1 := by
    intro h
    rw [h, t2'] at eq
    exact h1 eq
  have hcase : q.length = 2 ∨ q.length = 3 := by omega
  have key : ∀ i, q.length = i → ((quoteChar c).length ≤ i ∨ (match decodeChar ((quoteChar c).take i) with
      | .ok (e, j) => j == i && decide (c.toNat < 32) && (e == 63 || (decide (1 ≤ e.toNat) && decide (e.toNat ≤ 3)))
      | _ => false) = true) →
      ∃ e, decodeChar q = .ok (e, q.length) ∧ q.head? = some 92 ∧ c.toNat < 32 ∧ (e = 63 ∨ (1 ≤ e.toNat ∧ e.toNat ≤ 3)) := by
    intro i hi h
    rcases h with h | h
    · omega
    · rw [← hi, ← eq] at h
      split at h
      · rename_i e j hd
        simp only [Bool.and_eq_true, decide_eq_true_eq, Bool.or_eq_true, beq_iff_eq] at h
        obtain ⟨⟨h2, h3⟩, h4⟩ := h
        exact ⟨e, by rw [hd, h2], hh, h3, h4⟩
      · cases h
  rcases hcase with h | h
  · exact key 2 h t3
  · exact key 3 h t4

/-- What the quoted part of a token is on a beginning of an encoded text. -/
def RawCut (q w' w : Str) : Prop :=
  (w' <+: w ∧ q = w'.flatMap quoteChar) ∨
  ∃ p c d e, w' = p ++ [c] ∧ p ++ [d] <+: w ∧ q = p.flatMap quoteChar ++ e ∧ e <+: quoteChar d ∧
    d.toNat < 32 ∧ (c = 63 ∨ (1 ≤ c.toNat ∧ c.toNat ≤ 3))

theorem rawCut_cons {c : Byte} {q a b : Str} (h : RawCut q a b) : RawCut (quoteChar c ++ q) (c :: a) (c :: b) := by
  rcases h with ⟨h, rfl⟩ | ⟨p, e, d, x, rfl, h2, rfl, h3⟩
  · exact .inl ⟨List.cons_prefix_cons.2 ⟨rfl, h⟩, by simp⟩
  · exact .inr ⟨c :: p, e, d, x, rfl, List.cons_prefix_cons.2 ⟨rfl, h2⟩, by simp, h3⟩

theorem getLast?_append_some {a b : Str} {c : Byte} (h : b.getLast? = some c) : (a ++ b).getLast? = some c := by
  rw [List.getLast?_append, h]; rfl

/-- The quoted part of a token on a beginning of an encoded text. -/
theorem quoteLoop_cut : ∀ (w : Str), Ascii w → ∀ (q : Str), q <+: w.flatMap quoteChar → ∀ acc,
    (q.getLast? = some 92 ∧ ∀ n, quoteLoop 34 n acc q = .diverges) ∨
    ∃ w', RawCut q w' w ∧ ∃ n, quoteLoop 34 n acc q = .ok (acc ++ w', [])
  | [], _, q, hq, acc => by
    have : q = [] := by simpa using hq
    subst this
    exact .inr ⟨[], .inl ⟨List.prefix_refl _, rfl⟩, 1, by simp [quoteLoop]⟩
  | c :: w, hw, q, hq, acc => by
    have hc := hw c (by simp)
    rw [List.flatMap_cons] at hq
    by_cases hl : q.length < (quoteChar c).length
    · have hp : q <+: quoteChar c := by
        rcases prefix_append_cases hq with h | ⟨u, rfl, _⟩
        · exact h
        · simp at hl; omega
      by_cases h0 : q = []
      · subst h0
        exact .inr ⟨[], .inl ⟨List.nil_prefix, rfl⟩, 1, by simp [quoteLoop]⟩
      by_cases h1 : q = [92]
      · subst h1
        exact .inl ⟨rfl, fun n => quoteLoop_lone (by decide) n acc⟩
      obtain ⟨e, he, hh, h3, h4⟩ := cutEsc hc hp hl h0 h1
      cases q with
      | nil => exact absurd rfl h0
      | cons b q =>
        simp at hh
        subst hh
        refine .inr ⟨[e], .inr ⟨[], e, c, _, rfl, by simp, rfl, hp, h3, h4⟩, 2, ?_⟩
        rw [quoteLoop_esc (by decide) he (by simp)]
        simp [quoteLoop]
    · obtain ⟨u, rfl, hu⟩ : ∃ u, q = quoteChar c ++ u ∧ u <+: w.flatMap quoteChar := by
        rcases prefix_append_cases hq with h | h
        · refine ⟨[], ?_, List.nil_prefix⟩
          rw [List.append_nil]
          exact h.eq_of_length (by have := h.length_le; omega)
        · exact h
      rcases quoteLoop_cut w (fun d hd => hw d (by simp [hd])) u hu (acc ++ [c]) with ⟨h1, h2⟩ | ⟨w', h1, n, h4⟩
      · refine .inl ⟨getLast?_append_some h1, ?_⟩
        intro n
        cases n with
        | zero => rfl
        | succ n => rw [quoteLoop_quoteChar n acc u hc]; exact h2 n
      · refine .inr ⟨c :: w', rawCut_cons h1, n + 1, ?_⟩
        rw [quoteLoop_quoteChar n acc u hc, h4]
        simp

/-! ### Words -/

/-- The text written for a word. -/
inductive WordText (w : Str) : Str → Prop
  | quoted : WordText w (Flut.quoted w)
  | plain : (∀ c ∈ w, strchr propDelims c = false ∧ strchr propQuotes c = false ∧ strchr propOperators c = false) →
      (∀ c ∈ w, ¬ IsSpace c) → WordText w w

theorem wordText_tryQuoted {w : Str} (hw : Printable w) : WordText w (tryQuoted w) := by
  by_cases hq : needsQuotes w = true
  · simp only [tryQuoted, hq, if_true]; exact .quoted
  · have hnf : ∀ c ∈ w, ¬ ForcesQuotes c := fun c hc hf => hq ((needsQuotes_iff hw.1).2 ⟨c, hc, hf⟩)
    simp only [tryQuoted, hq]
    refine .plain ?_ ?_
    · rcases hw.2.2 with ⟨c, hc, hf⟩ | h
      · exact absurd hf (hnf c hc)
      · exact fun c hc => plain_char (hnf c hc) (h c hc)
    · intro c hc hs
      refine hnf c hc (.inl ?_)
      rcases hs with rfl | hs
      · decide
      · omega

/-- What the token loop makes of a beginning of a written word, before blanks are removed. -/
def RawWord (u w' w : Str) : Prop :=
  (w' = u ∧ u <+: w ∧ ∀ c ∈ u, ¬ IsSpace c) ∨ (∃ q, u = 34 :: q ∧ RawCut q w' w) ∨ (w' = w ∧ u = quoted w)

/-- The token loop on a beginning of a written word. -/
theorem tokenLoop_cut {w W u : Str} (hw : Ascii w) (hp : w ≠ b!"%") (hW : WordText w W) (hu : u <+: W) (pend : Str) :
    (u.getLast? = some 92 ∧ ∀ n, tokenLoop propDelims propOperators propQuotes n [] pend u = .diverges) ∨
    ∃ w' t n, RawWord u w' w ∧ (u = W → w' = w) ∧ (t = pend ++ w' ∨ t = w') ∧ (t = b!"%" → CutWord u [] w) ∧
      tokenLoop propDelims propOperators propQuotes n [] pend u = .ok (t, []) := by
  cases hW with
  | plain h hsp =>
    refine .inr ⟨u, pend ++ u, 1 + u.length, .inl ⟨rfl, hu, fun c hc => hsp c (hu.subset hc)⟩, fun h => h, .inl rfl, ?_, ?_⟩
    · intro h1
      by_cases hu0 : u = []
      · subst hu0; exact .inl ⟨rfl, List.nil_prefix⟩
      · obtain ⟨x, y, rfl⟩ := List.exists_cons_of_ne_nil hu0
        have hm : (37 : Byte) ∈ x :: y := by
          have h2 : (pend ++ x :: y).getLast? = some 37 := by rw [h1]; rfl
          rw [List.getLast?_append, Option.or_of_isSome (by simp)] at h2
          exact List.mem_of_getLast? h2
        exact absurd (h 37 (hu.subset hm)).2.2 (by decide)
    have := tokenLoop_plains (d := propDelims) (o := propOperators) (q := propQuotes) (w := u) (fun c hc => h c (hu.subset hc)) 1 []
      pend []
    rw [List.append_nil] at this
    rw [this]
    simp [tokenLoop]
  | quoted =>
    have e1 : strchr propDelims 34 = false := by decide
    have e2 : strchr propQuotes 34 = true := by decide
    have hu' : u <+: (34 :: w.flatMap quoteChar) ++ [34] := by simpa [Flut.quoted] using hu
    have part : ∀ q, q <+: w.flatMap quoteChar → u = 34 :: q →
        (u.getLast? = some 92 ∧ ∀ n, tokenLoop propDelims propOperators propQuotes n [] pend u = .diverges) ∨
        ∃ w' t n, RawWord u w' w ∧ (u = Flut.quoted w → w' = w) ∧ (t = pend ++ w' ∨ t = w') ∧
          (t = b!"%" → CutWord u [] w) ∧ tokenLoop propDelims propOperators propQuotes n [] pend u = .ok (t, []) := by
      rintro q hq rfl
      rcases quoteLoop_cut w hw q hq [] with ⟨h1, h2⟩ | ⟨w', h1, n, h4⟩
      · refine .inl ⟨getLast?_append_some (a := [34]) h1, ?_⟩
        intro n
        cases n with
        | zero => rfl
        | succ n => rw [tokenLoop_quote e1 e2, h2 n]; rfl
      · refine .inr ⟨w', w', n + 1, .inr (.inl ⟨q, rfl, h1⟩), ?_, .inr rfl, ?_, ?_⟩
        · intro h
          have := congrArg List.length h
          have := hq.length_le
          simp [Flut.quoted] at *
          omega
        · intro hp
          rcases h1 with ⟨h1, rfl⟩ | ⟨p, c, d, e, e1, _, _, _, _, h4⟩
          · exact .inr (.inl ⟨w', w', rfl, h1, .inr hp, .inl rfl⟩)
          · rw [hp] at e1
            cases p with
            | nil =>
              simp at e1
              subst e1
              exfalso
              revert h4; decide
            | cons y p => simp at e1
        · rw [tokenLoop_quote e1 e2, h4]
          simp
    rcases prefix_append_cases hu' with h | ⟨v, hv1, hv⟩
    · rcases prefix_cons_cases h with rfl | ⟨q, hq1, hq⟩
      · exact .inr ⟨[], pend, 1, .inl ⟨rfl, List.nil_prefix, by simp⟩, fun h => by simp [Flut.quoted] at h, .inl (by simp),
          fun _ => .inl ⟨rfl, List.nil_prefix⟩, by simp [tokenLoop]⟩
      · exact part q hq hq1
    · rcases prefix_cons_cases hv with rfl | ⟨v, rfl, hv⟩
      · exact part _ (List.prefix_refl _) (by simpa using hv1)
      · have hv0 : v = [] := by simpa using hv
        subst hv0
        have hu1 : u = Flut.quoted w := by rw [hv1]; simp [Flut.quoted]
        refine .inr ⟨w, w, 0 + w.length + 2, .inr (.inr ⟨rfl, hu1⟩), fun _ => rfl, .inr rfl, fun h => absurd h hp, ?_⟩
        have := tokenLoop_quoted (d := propDelims) (o := propOperators) (q := propQuotes) hw (by decide) (by decide) 0 [] pend []
        rw [if_pos rfl, List.append_nil] at this
        rw [hu1]
        simpa using this

/-! ### Trimming -/

theorem right_trim : ∀ w : Str, ∃ r b, w = r ++ b ∧ (∀ c ∈ b, IsSpace c) ∧ ∀ c ∈ r.getLast?, ¬ IsSpace c
  | [] => ⟨[], [], rfl, by simp, by simp⟩
  | x :: w => by
    obtain ⟨r, b, rfl, hb, hr⟩ := right_trim w
    cases r with
    | nil =>
      by_cases hx : IsSpace x
      · refine ⟨[], x :: b, rfl, ?_, by simp⟩
        intro c hc
        rcases List.mem_cons.1 hc with rfl | h
        · exact hx
        · exact hb c h
      · exact ⟨[x], b, rfl, hb, by simpa using hx⟩
    | cons y r => exact ⟨x :: y :: r, b, rfl, hb, by simpa using hr⟩

theorem trim_cut {a u w' w : Str} (ha : ∀ c ∈ a, IsSpace c) (hw : Trimmed w) (h : RawWord u w' w) :
    ∃ r, trimStr (a ++ w') = .ok r ∧ CutWord u r w ∧ (r = [] → w' = []) ∧ (w' = w → r = w) := by
  have sp : ∀ c : Byte, (c = 63 ∨ (1 ≤ c.toNat ∧ c.toNat ≤ 3)) → ¬ IsSpace c := by
    rintro c (rfl | h) hs
    · revert hs; decide
    · rcases hs with rfl | hs
      · revert h; decide
      · omega
  have full : ∀ x : Str, Trimmed x → trimStr (a ++ x) = .ok x := by
    intro x hx
    have := trim_trimmed a [] hx ha (by simp)
    simpa using this
  have hpre : ∀ (x t : Str), x ++ t = w → ∀ c ∈ x.head?, ¬ IsSpace c := by
    rintro x t rfl c hc
    refine hw.1 c ?_
    cases x with
    | nil => simp at hc
    | cons y x => simpa using hc
  rcases h with ⟨rfl, h1, h2⟩ | ⟨q, rfl, ⟨⟨t, h1⟩, rfl⟩ | ⟨p, c, d, e, rfl, ⟨t, h2⟩, rfl, h3, h4, h5⟩⟩ | ⟨rfl, rfl⟩
  · refine ⟨w', full _ ⟨?_, ?_⟩, .inl ⟨rfl, h1⟩, id, id⟩
    · exact fun c hc => h2 c (List.mem_of_head? hc)
    · exact fun c hc => h2 c (List.mem_of_getLast? hc)
  · have head := hpre _ _ h1
    obtain ⟨r, b, hrb, hb, hr⟩ := right_trim w'
    have hrT : Trimmed r := by
      refine ⟨?_, hr⟩
      intro c hc
      refine head c ?_
      rw [hrb]
      cases r with
      | nil => simp at hc
      | cons x r => simpa using hc
    have htr : trimStr (a ++ w') = .ok r := by
      have := trim_trimmed a b hrT ha hb
      rw [hrb, ← List.append_assoc]; exact this
    refine ⟨r, htr, .inr (.inl ⟨w', b, hrb, ⟨t, h1⟩, .inl hb, .inl rfl⟩), ?_, ?_⟩
    · intro h0
      subst h0
      cases w' with
      | nil => rfl
      | cons x w' =>
        refine absurd (hb x ?_) (head x (by simp))
        rw [List.nil_append] at hrb
        rw [← hrb]; simp
    · intro h
      have := full w' (h ▸ hw)
      rw [htr] at this
      simp at this
      rw [this, h]
  · refine ⟨p ++ [c], full _ ⟨?_, by simpa using sp c h5⟩, .inr (.inr ⟨p, c, d, e, rfl, ⟨t, h2⟩, rfl, h3, h4, h5⟩), by simp, id⟩
    cases p with
    | nil => simpa using sp c h5
    | cons y p =>
      intro x hx
      exact hpre _ _ h2 x (by simpa using hx)
  · exact ⟨w', full _ hw, .inr (.inl ⟨w', [], by simp, List.prefix_refl _, .inl (by simp), .inr ⟨rfl, rfl⟩⟩), id, id⟩

/-! ### Tokens at the end of the text -/

theorem skipDelims_not_good {s : CharStream} (h : s.good = false) : s.skipDelims.good = false := by
  simp only [good, Bool.not_eq_false', Bool.or_eq_true] at h
  simp only [skipDelims, testEof]
  split <;> simp [good]
  rcases h with h | h <;> simp [h]

theorem pinit_nil_not_good : (pinit []).good = false := by decide

theorem pinit_delims_not_good {dl : Str} (h : ∀ c ∈ dl, strchr propDelims c = true) : (pinit dl).good = false := by
  have := pinit_delims (x := []) h
  rw [List.append_nil] at this
  rw [this]; decide

theorem getLine_not_good {s : CharStream} (h : s.good = false) : s.getLine.2.good = false := by
  simp only [getLine, processEnd]
  split
  · simp [good]
  · apply skipDelims_not_good
    simpa [good] using h

/-- One token that reaches the end of the text. -/
theorem getPropToken_end {dl Y t v : Str} {c : Byte} {N : Nat} (hdl : ∀ d ∈ dl, strchr propDelims d = true)
    (hc : strchr propDelims c = false)
    (hN : tokenLoop propDelims propOperators propQuotes N [] [] (c :: Y) = .ok (t, [])) (htrim : trimStr t = .ok v) :
    ∃ s, (s.good = false ∧ s.rest = []) ∧
      ((t ≠ b!"%" ∧ getPropToken (pinit (dl ++ c :: Y)) = .ok (v, s)) ∨
       (t = b!"%" ∧ getPropToken (pinit (dl ++ c :: Y)) = .ok ([], s))) := by
  by_cases ht : t = b!"%"
  · rw [pinit_delims hdl, pinit_cons hc]
    have hg : ({ rest := c :: Y, delims := propDelims } : CharStream).good = true := rfl
    have h1 := getToken_of (s := { rest := c :: Y, delims := propDelims }) hg hN
    have hg2 : (({ rest := [], delims := propDelims } : CharStream).skipDelims).getLine.2.good = false :=
      getLine_not_good (by decide)
    refine ⟨_, ⟨skipDelims_not_good hg2, by decide⟩, .inr ⟨ht, ?_⟩⟩
    have h2 : ∀ n, getPropTokenN (n + 1) (({ rest := [], delims := propDelims } : CharStream).skipDelims).getLine.2 =
        .ok ([], ((({ rest := [], delims := propDelims } : CharStream).skipDelims).getLine.2).skipDelims) := by
      intro n
      simp [getPropTokenN, getToken, getTokenN, hg2, trimStr, findFirst]
    simp only [getPropToken, getPropTokenN, h1, Res.bind_ok, if_pos ht, List.length_cons]
    exact h2 _
  · exact ⟨_, ⟨pinit_nil_not_good, by decide⟩, .inl ⟨ht, getPropToken_step hdl hc hN ht htrim⟩⟩

theorem getPropToken_diverges {dl Y : Str} {c : Byte} (hdl : ∀ d ∈ dl, strchr propDelims d = true)
    (hc : strchr propDelims c = false)
    (hN : ∀ n, tokenLoop propDelims propOperators propQuotes n [] [] (c :: Y) = .diverges) :
    getPropToken (pinit (dl ++ c :: Y)) = .diverges := by
  rw [pinit_delims hdl, pinit_cons hc]
  simp [getPropToken, getPropTokenN, getToken, getTokenN, good, hN]

/-- The token at the end of a text that was cut in a key. -/
theorem tok_cut_label {dl k u : Str} (hdl : ∀ d ∈ dl, strchr propDelims d = true) (hk : Printable k) (hne : k ≠ [])
    (hu : u <+: tryQuoted k) (h0 : u ≠ []) :
    (getPropToken (pinit (dl ++ u)) = .diverges ∧ u.getLast? = some 92) ∨
    ∃ k' s, getPropToken (pinit (dl ++ u)) = .ok (k', s) ∧ (s.good = false ∧ s.rest = []) ∧ CutWord u k' k ∧
      (k' = [] → u = [34] ∨ ∃ c ∈ k.head?, ¬ IsLetter c) ∧ (u = tryQuoted k → k' = k) := by
  obtain ⟨c, Y, hY, hc⟩ := tryQuoted_head hk hne
  obtain ⟨u', rfl, _⟩ : ∃ u', u = c :: u' ∧ u' <+: Y := by
    rcases prefix_cons_cases (hY ▸ hu) with h | h
    · exact absurd h h0
    · exact h
  rcases tokenLoop_cut hk.1 (printable_ne_percent hk) (wordText_tryQuoted hk) hu [] with ⟨h1, h2⟩ | ⟨w', t, n, h1, h3, h4, h6, h5⟩
  · exact .inl ⟨getPropToken_diverges hdl hc h2, h1⟩
  · have ht : t = w' := by simpa using h4
    subst ht
    obtain ⟨r, hr, r1, r2, r3⟩ := trim_cut (a := []) (by simp) hk.2.1 h1
    obtain ⟨s, hs, h⟩ := getPropToken_end hdl hc h5 hr
    refine .inr ?_
    rcases h with ⟨_, h⟩ | ⟨hp, h⟩
    · refine ⟨r, s, h, hs, r1, ?_, fun e => r3 (h3 e)⟩
      intro hr0
      have hw0 := r2 hr0
      subst hw0
      rcases h1 with ⟨h1, _⟩ | ⟨q, h1, ⟨_, rfl⟩ | ⟨p, c, d, e, h2, _⟩⟩ | ⟨h1, _⟩
      · cases h1
      · exact .inl h1
      · simp at h2
      · exact absurd h1.symm hne
    · refine ⟨[], s, h, hs, h6 hp, ?_, ?_⟩
      · intro _
        right
        rcases h6 hp with ⟨h, _⟩ | ⟨p, l, _, hpre, _⟩ | ⟨p, _, _, _, h, _⟩
        · cases h
        · rcases h1 with ⟨h1, ⟨x, hx⟩, _⟩ | ⟨q, h1, ⟨⟨x, hx⟩, _⟩ | ⟨p, c, d, e, h2, _, _, _, _, h4⟩⟩ | ⟨h1, _⟩
          · refine ⟨37, ?_, by decide⟩
            rw [← hx, ← h1, hp]; simp
          · refine ⟨37, ?_, by decide⟩
            rw [← hx, hp]; simp
          · rw [hp] at h2
            cases p with
            | nil =>
              simp at h2
              subst h2
              exfalso
              revert h4; decide
            | cons y p => simp at h2
          · exact absurd (h1.symm.trans hp) (printable_ne_percent hk)
        · simp at h
      · intro e
        have := h3 e
        rw [hp] at this
        exact absurd this.symm (printable_ne_percent hk)

/-- A complete key and a blank at the end of the text. -/
theorem tok_label_blank {dl k : Str} (hdl : ∀ d ∈ dl, strchr propDelims d = true) (hk : Printable k) (hne : k ≠ []) :
    getPropToken (pinit (dl ++ (tryQuoted k ++ [32]))) = .ok (k, pinit []) := by
  obtain ⟨c, Y, hY, hc⟩ := tryQuoted_head hk hne
  obtain ⟨N, m, acc, p, h1, h2⟩ := tokenLoop_tryQuoted hk 1 [] [32] (by simp)
  have e : tokenLoop propDelims propOperators propQuotes (1 + m + 1) acc p [32] = .ok (k ++ [32], []) := by
    have e1 : 1 + m + 1 = m + 1 + 1 := by omega
    rw [e1, tokenLoop_plain (by decide) (by decide) (by decide)]
    rcases h2 with ⟨rfl, rfl⟩ | ⟨rfl, rfl⟩ <;> simp [tokenLoop]
  rw [e] at h1
  have := getPropToken_step (dl := dl) (c := c) (Y := Y ++ [32]) (v := k) hdl hc
    (by rw [← List.cons_append, ← hY]; exact h1)
    (by cases k with
      | nil => exact absurd rfl hne
      | cons a l => simp)
    (by simpa using trim_trimmed [] [32] hk.2.1 (by simp) (by simp [IsSpace]))
  rw [← this, ← List.cons_append, ← hY]

/-- The token at the end of a text that was cut in a value. -/
theorem tok_cut_value {v V u : Str} (hv : Printable v) (hV : WordText v V) (hu : u <+: 32 :: V) :
    (getPropToken (pinit u) = .diverges ∧ u.getLast? = some 92) ∨
    ∃ v' s, getPropToken (pinit u) = .ok (v', s) ∧ s.good = false ∧ CutWord (u.drop 1) v' v ∧ (u = 32 :: V → v' = v) := by
  rcases prefix_cons_cases hu with rfl | ⟨u, rfl, hu'⟩
  · exact .inr ⟨[], _, getPropToken_not_good (by decide), skipDelims_not_good (by decide), .inl ⟨rfl, List.nil_prefix⟩, by simp⟩
  have hpl : ∀ n, tokenLoop propDelims propOperators propQuotes (n + 1) [] [] (32 :: u) =
      tokenLoop propDelims propOperators propQuotes n [] [32] u := fun n =>
    tokenLoop_plain (by decide) (by decide) (by decide)
  rcases tokenLoop_cut hv.1 (printable_ne_percent hv) hV hu' [32] with ⟨h1, h2⟩ | ⟨w', t, n, h1, h3, h4, h6, h5⟩
  · refine .inl ⟨getPropToken_diverges (dl := []) (by simp) (by decide) ?_, getLast?_append_some (a := [32]) h1⟩
    intro n
    cases n with
    | zero => rfl
    | succ n => rw [hpl]; exact h2 n
  · obtain ⟨r, hr, r1, r2, r3⟩ : ∃ r, trimStr t = .ok r ∧ CutWord u r v ∧ (r = [] → w' = []) ∧ (w' = v → r = v) := by
      rcases h4 with rfl | rfl
      · exact trim_cut (a := [32]) (by simp [IsSpace]) hv.2.1 h1
      · exact trim_cut (a := []) (by simp) hv.2.1 h1
    obtain ⟨s, hs, h⟩ := getPropToken_end (dl := []) (c := 32) (Y := u) (N := n + 1) (by simp) (by decide) (by rw [hpl]; exact h5) hr
    refine .inr ?_
    rcases h with ⟨_, h⟩ | ⟨hp, h⟩
    · exact ⟨r, s, h, hs.1, r1, fun e => r3 (h3 (by simpa using e))⟩
    · refine ⟨[], s, h, hs.1, h6 hp, ?_⟩
      intro e
      have hw := h3 (by simpa using e)
      exfalso
      rcases h4 with h4 | h4
      · rw [hp] at h4; simp at h4
      · rw [hp, hw] at h4
        exact printable_ne_percent hv h4.symm

/-! ### Trees -/

/-- The label of a node that was cut. -/
theorem isValidLabel_cut {u k k' : Str} (hk : PrintableKey k) (h : CutWord u k' k) (hne : k' ≠ []) :
    isValidLabel k' = .ok true ∧ k' ≠ b!"}" := by
  obtain ⟨_, c, hc, hl⟩ := hk
  have hh : k'.head? = k.head? := by
    have pre : ∀ {x : Str}, x ≠ [] → x <+: k → x.head? = k.head? := by
      rintro x hx ⟨t, rfl⟩
      cases x with
      | nil => exact absurd rfl hx
      | cons y x => rfl
    rcases h with ⟨rfl, h⟩ | ⟨p, l, rfl, h, _⟩ | ⟨p, x, d, e, rfl, h, _, _, h1, _⟩
    · exact pre hne h
    · exact pre hne (List.IsPrefix.trans ⟨l, rfl⟩ h)
    · cases p with
      | nil =>
        have := pre (by simp) h
        rw [hc] at this
        simp at this
        subst this
        unfold IsLetter at hl
        omega
      | cons y p =>
        rw [← pre (by simp) h]; rfl
  cases k' with
  | nil => exact absurd rfl hne
  | cons d ds =>
    rw [hc] at hh
    simp at hh
    subst hh
    have hlt : ¬ 128 ≤ d.toNat := by
      unfold IsLetter at hl; omega
    constructor
    · simp only [isValidLabel, if_neg hlt]
      have : isAlphaC d = true := by
        simp only [isAlphaC, Bool.or_eq_true, Bool.and_eq_true, decide_eq_true_eq, UInt8.le_iff_toNat_le]
        exact hl
      rw [this]
    · intro h
      simp at h
      rw [h.1] at hl
      revert hl; decide

theorem readNode_not_good {s : CharStream} (h : s.good = false) (f : Nat) :
    ∃ s', readNode (f + 1) s = .ok (.mk false [] [], s') ∧ s'.good = false := by
  refine ⟨s.skipDelims, ?_, skipDelims_not_good h⟩
  rw [readNode, getPropToken_not_good (by simp [h])]
  rfl

theorem readChildren_not_good {s : CharStream} (h : s.good = false) (f : Nat) (t : Str) :
    readChildren (f + 1) s t = .ok ([], s) := by
  simp [readChildren, h]

/-- The three things that can happen when a beginning `u` is read: it hangs behind a backslash, it throws behind a quote, or
something is read up to the end. -/
def Outcome {α : Type} (u : Str) (r : Res (α × CharStream)) (P : α → Prop) : Prop :=
  (r = .diverges ∧ u.getLast? = some 92) ∨ (r = .throws .flutError ∧ u.getLast? = some 34) ∨
  ∃ x s, r = .ok (x, s) ∧ s.good = false ∧ P x

/-- What reading a beginning of a written node does. -/
def CutReads (n : PN) : Prop := ∀ (k : Str) (l : Nat) (u : Str), PrintableKey k → u <+: writeNode true k l n →
  u.length < (writeNode true k l n).length →
  ((pinit u).good = false ∧ u.length ≤ l) ∨
  ((pinit u).good = true ∧
    ((getPropToken (pinit u) = .diverges ∧ u.getLast? = some 92) ∨
     (∃ s, getPropToken (pinit u) = .ok ([], s) ∧ s.good = false ∧ u.length = l + 1 ∧ u.getLast? = some 34) ∨
     ∃ k' s, getPropToken (pinit u) = .ok (k', s) ∧ isValidLabel k' = .ok true ∧ k' ≠ b!"}" ∧ s.rest.length + 1 ≤ u.length ∧
       ∀ f, s.rest.length + 1 ≤ f → Outcome u (readNode f s) fun n' => ∀ cs, CutKids l u [(k', n')] ((k, n) :: cs)))

theorem Outcome.append {α : Type} {a u : Str} {r : Res (α × CharStream)} {P Q : α → Prop} (h : Outcome u r P)
    (hQ : ∀ x, P x → Q x) : Outcome (a ++ u) r Q := by
  rcases h with ⟨h1, h2⟩ | ⟨h1, h2⟩ | ⟨x, s, h1, h2, h3⟩
  · exact .inl ⟨h1, getLast?_append_some h2⟩
  · exact .inr (.inl ⟨h1, getLast?_append_some h2⟩)
  · exact .inr (.inr ⟨x, s, h1, h2, hQ x h3⟩)

/-- Cut in the key. -/
theorem cutReads_key {k : Str} {n : PN} {l : Nat} {u : Str} (hk : PrintableKey k) (hu : u <+: indentStr true l ++ tryQuoted k) :
  ((pinit u).good = false ∧ u.length ≤ l) ∨
  ((pinit u).good = true ∧
    ((getPropToken (pinit u) = .diverges ∧ u.getLast? = some 92) ∨
     (∃ s, getPropToken (pinit u) = .ok ([], s) ∧ s.good = false ∧ u.length = l + 1 ∧ u.getLast? = some 34) ∨
     ∃ k' s, getPropToken (pinit u) = .ok (k', s) ∧ isValidLabel k' = .ok true ∧ k' ≠ b!"}" ∧ s.rest.length + 1 ≤ u.length ∧
       ∀ f, s.rest.length + 1 ≤ f → Outcome u (readNode f s) fun n' => ∀ cs, CutKids l u [(k', n')] ((k, n) :: cs))) := by
  have hil : (indentStr true l).length = l := by simp [indentStr]
  obtain ⟨_, hne, _⟩ := isValidLabel_key hk
  rcases prefix_append_cases hu with h | ⟨v, rfl, hv⟩
  · exact .inl ⟨pinit_delims_not_good fun c hc => indent_delims l c (h.subset hc), by have := h.length_le; omega⟩
  by_cases hv0 : v = []
  · subst hv0
    rw [List.append_nil]
    exact .inl ⟨pinit_delims_not_good (indent_delims l), by omega⟩
  obtain ⟨c, Y, hY, hc⟩ := tryQuoted_head hk.1 hne
  have hg : (pinit (indentStr true l ++ v)).good = true := by
    rcases prefix_cons_cases (hY ▸ hv) with h | ⟨v', rfl, _⟩
    · exact absurd h hv0
    · exact pinit_good (indent_delims l) hc
  refine .inr ⟨hg, ?_⟩
  rcases tok_cut_label (indent_delims l) hk.1 hne hv hv0 with ⟨h1, h2⟩ | ⟨k', s, h1, ⟨h2, h2'⟩, h3, h4, h5⟩
  · exact .inl ⟨h1, getLast?_append_some h2⟩
  by_cases hk0 : k' = []
  · subst hk0
    have h34 : v = [34] := by
      rcases h4 rfl with h | ⟨c, hc, hnl⟩
      · exact h
      · obtain ⟨_, d, hd, hl⟩ := hk
        rw [Option.mem_def] at hc hd
        rw [hc] at hd
        simp at hd
        subst hd
        exact absurd hl hnl
    refine .inr (.inl ⟨s, h1, h2, ?_, ?_⟩)
    · rw [h34]; simp [hil]
    · rw [h34]; simp
  · obtain ⟨w1, w2⟩ := isValidLabel_cut hk h3 hk0
    have hs0 : s.rest.length + 1 ≤ (indentStr true l ++ v).length := by
      rw [h2']
      have := List.length_pos_iff.2 hv0
      simp; omega
    refine .inr (.inr ⟨k', s, h1, w1, w2, hs0, ?_⟩)
    intro f hf
    obtain ⟨f, rfl⟩ : ∃ g, f = g + 1 := ⟨f - 1, by omega⟩
    obtain ⟨s', r1, r2⟩ := readNode_not_good h2 f
    refine .inr (.inr ⟨_, s', r1, r2, ?_⟩)
    intro cs
    refine .key (by have := hv.length_le; simp [hil]; omega) hk0 ?_ ?_
    · rw [List.drop_append_of_le_length (by omega), List.drop_of_length_le (by omega), List.nil_append]; exact h3
    · intro he
      refine h5 (hv.eq_of_length ?_)
      simp [hil] at he
      omega

theorem writeLeaf_eq (k v : Str) (l : Nat) (a : Bool) : ∃ V, (Printable v → WordText v V) ∧
    writeNode true k l (.mk a v []) = (indentStr true l ++ tryQuoted k) ++ 32 :: 61 :: ((32 :: V) ++ [10]) := by
  refine ⟨if v = [] then b!"\"\"" else tryQuoted v, ?_, ?_⟩
  · intro hv
    split
    · rename_i h; subst h; exact .quoted
    · exact wordText_tryQuoted hv
  · cases v <;> simp [writeNode, writeValue, PN.hasValue, PN.empty, PN.value, PN.children, newlineStr]

theorem proper_prefix {u a : Str} {c : Byte} (h : u <+: a ++ [c]) (hl : u.length < (a ++ [c]).length) : u <+: a := by
  rcases prefix_append_cases h with h | ⟨v, rfl, hv⟩
  · exact h
  · rcases prefix_cons_cases hv with rfl | ⟨w, rfl, hw⟩
    · simp
    · simp at hl

theorem cutReads_leaf {a : Bool} {v : Str} (hv : Printable v) : CutReads (.mk a v []) := by
  intro k l u hk hu hl
  have hil : (indentStr true l).length = l := by simp [indentStr]
  obtain ⟨hv1, hne, hv2⟩ := isValidLabel_key hk
  obtain ⟨c, Y, hY, hc⟩ := tryQuoted_head hk.1 hne
  obtain ⟨V, hV, e⟩ := writeLeaf_eq k v l a
  have hKl : (indentStr true l ++ tryQuoted k).length = l + (tryQuoted k).length := by simp [hil]
  have hwl : (writeNode true k l (.mk a v [])).length = l + (tryQuoted k).length + V.length + 4 := by
    rw [e]; simp [hil]; omega
  have hu' := hu
  rw [e] at hu'
  rcases prefix_append_cases hu' with h | ⟨u1, rfl, h1⟩
  · exact cutReads_key hk h
  rcases prefix_cons_cases h1 with rfl | ⟨u1, rfl, h2⟩
  · exact cutReads_key hk (by rw [List.append_nil]; exact List.prefix_refl _)
  have hg : (pinit (indentStr true l ++ tryQuoted k ++ 32 :: u1)).good = true := by
    rw [List.append_assoc, hY]
    exact pinit_good (indent_delims l) hc
  refine .inr ⟨hg, .inr (.inr ?_)⟩
  have kids : ∀ {u1 v' : Str}, u1.length ≤ V.length + 2 → CutWord (u1.drop 2) v' v → (u1.length = V.length + 2 → v' = v) → ∀ cs,
      CutKids l (indentStr true l ++ tryQuoted k ++ 32 :: u1) [(k, .mk false v' [])] ((k, .mk a v []) :: cs) := by
    intro u1 v' h0 h1 h2 cs
    refine .value (by rw [List.length_append, hKl]; simp) (by rw [hwl, List.length_append, hKl]; simp; omega) ?_ ?_
    · rw [List.drop_append, List.drop_of_length_le (by omega), hKl]
      have : l + (tryQuoted k).length + 3 - (l + (tryQuoted k).length) = 3 := by omega
      rw [this]
      simpa using h1
    · intro h
      refine h2 ?_
      rw [hwl, List.length_append, hKl] at h
      simp at h
      omega
  rcases prefix_cons_cases h2 with rfl | ⟨u2, rfl, h3⟩
  · refine ⟨k, pinit [], by rw [List.append_assoc]; exact tok_label_blank (indent_delims l) hk.1 hne, hv1, hv2, ?_, ?_⟩
    · have : (pinit []).rest = [] := by decide
      rw [this]; simp; omega
    · intro f hf
      obtain ⟨f, rfl⟩ : ∃ g, f = g + 1 := ⟨f - 1, by omega⟩
      obtain ⟨s', r1, r2⟩ := readNode_not_good pinit_nil_not_good f
      exact .inr (.inr ⟨_, s', r1, r2, kids (by simp) (.inl ⟨rfl, List.nil_prefix⟩) (by simp)⟩)
  · have ht := tok_label_assign (R := u2) (indent_delims l) hk.1 hne
    have hr : (pinit (61 :: u2)).rest = 61 :: u2 := by rw [pinit_cons (by decide)]
    refine ⟨k, pinit (61 :: u2), by rw [← ht]; simp, hv1, hv2, ?_, ?_⟩
    · rw [hr]
      have := (tryQuoted k).length
      rw [hY]
      simp; omega
    · intro f hf
      obtain ⟨f, rfl⟩ : ∃ g, f = g + 1 := ⟨f - 1, by omega⟩
      have h5 := tok_op (dl := []) (R := u2) (op := 61) (by simp) (by simp)
      rw [List.nil_append] at h5
      have hlen : (32 :: 61 :: u2).length < (32 :: 61 :: ((32 :: V) ++ [10])).length := by
        rw [e, List.length_append, List.length_append (as := indentStr true l ++ tryQuoted k)] at hl
        omega
      have h3' : u2 <+: 32 :: V := proper_prefix h3 (by simpa using hlen)
      have hread : readNode (f + 1) (pinit (61 :: u2)) = (do
          let (v, s2) ← getPropToken (pinit u2)
          .ok (.mk false v [], s2)) := by
        rw [readNode, h5]; rfl
      rw [hread]
      rcases tok_cut_value hv (hV hv) h3' with ⟨t1, t2⟩ | ⟨v', s, t1, t2, t3, t4⟩
      · refine .inl ⟨by rw [t1]; rfl, ?_⟩
        have := getLast?_append_some (a := indentStr true l ++ tryQuoted k ++ [32, 61]) t2
        simpa using this
      · refine .inr (.inr ⟨.mk false v' [], s, by rw [t1]; rfl, t2, kids (by have := h3'.length_le; simp at this ⊢; omega) (by simpa using t3) ?_⟩)
        intro hlen
        refine t4 (h3'.eq_of_length ?_)
        simp at hlen ⊢
        omega

/-- Reading a beginning of the children of a group and its closing brace. -/
theorem readChildren_cut {cs : List (Str × PN)} (hk : ∀ kn ∈ cs, PrintableKey kn.1) (hn : ∀ kn ∈ cs, ReadsBack kn.2)
    (hc : ∀ kn ∈ cs, CutReads kn.2) (l : Nat) : ∀ (u : Str), u <+: writeNodes true (l + 1) cs ++ (indentStr true l ++ [125]) →
    ∀ (f : Nat) (t : Str), t ≠ b!"}" → u.length + 1 ≤ f →
    Outcome u (readChildren f (pinit u) t) fun cs' => CutKids (l + 1) u cs' cs := by
  have hil : (indentStr true l).length = l := by simp [indentStr]
  induction cs with
  | nil =>
    intro u hu f t ht hf
    rw [writeNodes, List.nil_append] at hu
    rcases prefix_append_cases hu with h | ⟨v, rfl, hv⟩
    · obtain ⟨f, rfl⟩ : ∃ g, f = g + 1 := ⟨f - 1, by omega⟩
      have hg : (pinit u).good = false := pinit_delims_not_good fun c hc => indent_delims l c (h.subset hc)
      exact .inr (.inr ⟨[], _, readChildren_not_good hg f t, hg, .stop (by have := h.length_le; omega)⟩)
    rcases prefix_cons_cases hv with rfl | ⟨w, rfl, hw⟩
    · obtain ⟨f, rfl⟩ : ∃ g, f = g + 1 := ⟨f - 1, by omega⟩
      have hg : (pinit (indentStr true l ++ [])).good = false := by
        rw [List.append_nil]; exact pinit_delims_not_good (indent_delims l)
      exact .inr (.inr ⟨[], _, readChildren_not_good hg f t, hg, .stop (by simp [hil]; omega)⟩)
    · have hw0 : w = [] := by simpa using hw
      subst hw0
      obtain ⟨f, rfl⟩ : ∃ g, f = g + 2 := ⟨f - 2, by simp at hf; omega⟩
      have h1 := tok_op (R := []) (op := 125) (indent_delims l) (by simp)
      have hg := pinit_good (Y := []) (c := 125) (indent_delims l) (by decide)
      have hv : isValidLabel [125] = .ok false := by decide
      refine .inr (.inr ⟨[], pinit [], ?_, pinit_nil_not_good, .stop (by simp [hil])⟩)
      simp only [readChildren, hg, Bool.true_and, decide_eq_true_eq, ne_eq, ht,
        not_false_eq_true, if_true, h1, Res.bind_ok, hv, Bool.false_eq_true, if_false, not_true_eq_false,
        decide_false, Bool.and_false]
  | cons kn cs ih =>
    obtain ⟨k, n⟩ := kn
    intro u hu f t ht hf
    have hkk : PrintableKey k := hk (k, n) (by simp)
    obtain ⟨hv, _, hne⟩ := isValidLabel_key hkk
    have hnn : ReadsBack n := hn (k, n) (by simp)
    obtain ⟨f, rfl⟩ : ∃ g, f = g + 1 := ⟨f - 1, by omega⟩
    rw [writeNodes, List.append_assoc] at hu
    have cut : u.length < (writeNode true k (l + 1) n).length → u <+: writeNode true k (l + 1) n →
        Outcome u (readChildren (f + 1) (pinit u) t) fun cs' => CutKids (l + 1) u cs' ((k, n) :: cs) := by
      intro hlt hpre
      rcases hc (k, n) (by simp) k (l + 1) u hkk hpre hlt with ⟨hg, h⟩ | ⟨hg, h⟩
      · exact .inr (.inr ⟨[], _, readChildren_not_good hg f t, hg, .stop (by omega)⟩)
      have hstep : readChildren (f + 1) (pinit u) t = (do
          let (t', s1) ← getPropToken (pinit u)
          let valid ← isValidLabel t'
          if valid then do
            let (nd, s2) ← readNode f s1
            let (rest, s3) ← readChildren f s2 t'
            .ok ((t', nd) :: rest, s3)
          else if t' ≠ b!"}" then .throws .flutError
          else readChildren f s1 t') := by
        rw [readChildren, hg]
        simp [ht]
      rw [hstep]
      rcases h with ⟨h1, h2⟩ | ⟨s, h1, h2, h3, h4⟩ | ⟨k', s, h1, h2, h3, h4, h5⟩
      · exact .inl ⟨by rw [h1]; rfl, h2⟩
      · exact .inr (.inl ⟨by rw [h1]; rfl, h4⟩)
      · have hu1 : 1 ≤ f := by omega
        rcases h5 f (by omega) with ⟨r1, r2⟩ | ⟨r1, r2⟩ | ⟨n', s', r1, r2, r3⟩
        · exact .inl ⟨by rw [h1]; simp [h2, r1], r2⟩
        · exact .inr (.inl ⟨by rw [h1]; simp [h2, r1], r2⟩)
        · obtain ⟨f, rfl⟩ : ∃ g, f = g + 1 := ⟨f - 1, by omega⟩
          refine .inr (.inr ⟨[(k', n')], s', ?_, r2, r3 cs⟩)
          rw [h1]
          simp [h2, r1, readChildren_not_good r2]
    rcases prefix_append_cases' hu with ⟨h, hlt⟩ | ⟨u', rfl, hu'⟩
    · exact cut hlt h
    · obtain ⟨s, h1, h2, h3, _, h5⟩ := hnn k (l + 1) u' hkk
      rw [List.length_append] at hf
      have h4 := ih (fun x hx => hk x (by simp [hx])) (fun x hx => hn x (by simp [hx])) (fun x hx => hc x (by simp [hx])) u' hu'
        f k hne (by omega)
      have hr : readChildren (f + 1) (pinit (writeNode true k (l + 1) n ++ u')) t = (do
          let (rest, s3) ← readChildren f (pinit u') k
          .ok ((k, n.clear) :: rest, s3)) := by
        rw [readChildren, h2]
        simp only [Bool.true_and, decide_eq_true_eq, ne_eq, ht, not_false_eq_true, if_true, h1, Res.bind_ok, hv,
          h3 f (by omega)]
      rw [hr]
      rcases h4 with ⟨r1, r2⟩ | ⟨r1, r2⟩ | ⟨cs', s', r1, r2, r3⟩
      · exact .inl ⟨by rw [r1]; rfl, getLast?_append_some r2⟩
      · exact .inr (.inl ⟨by rw [r1]; rfl, getLast?_append_some r2⟩)
      · exact .inr (.inr ⟨_, s', by rw [r1]; rfl, r2, .whole (PN.sameTree_clear n) r3⟩)

theorem cutReads_group {a : Bool} {ds : List (Str × PN)} (hds : ds ≠ []) (hk : ∀ kn ∈ ds, PrintableKey kn.1)
    (hn : ∀ kn ∈ ds, ReadsBack kn.2) (hc : ∀ kn ∈ ds, CutReads kn.2) : CutReads (.mk a [] ds) := by
  intro k l u hkk hu hl
  have hil : (indentStr true l).length = l := by simp [indentStr]
  obtain ⟨hv1, hne, hv2⟩ := isValidLabel_key hkk
  obtain ⟨c, Y, hY, hc1⟩ := tryQuoted_head hkk.1 hne
  have hKl : (indentStr true l ++ tryQuoted k).length = l + (tryQuoted k).length := by simp [hil]
  have e : writeNode true k l (.mk a [] ds) = ((indentStr true l ++ tryQuoted k) ++ 10 ::
      (indentStr true l ++ 123 :: 10 :: (writeNodes true (l + 1) ds ++ (indentStr true l ++ [125])))) ++ [10] := by
    simp [writeNode, writeValue, PN.hasValue, PN.empty, PN.value, PN.children, newlineStr, hds]
  have hl' := hl
  rw [e] at hu hl
  replace hu := proper_prefix hu hl
  rcases prefix_append_cases hu with h | ⟨u1, rfl, h1⟩
  · exact cutReads_key hkk h
  rcases prefix_cons_cases h1 with rfl | ⟨u1, rfl, h2⟩
  · exact cutReads_key hkk (by rw [List.append_nil]; exact List.prefix_refl _)
  have hg : (pinit (indentStr true l ++ tryQuoted k ++ 10 :: u1)).good = true := by
    rw [List.append_assoc, hY]
    exact pinit_good (indent_delims l) hc1
  have hlen : (indentStr true l ++ tryQuoted k ++ 10 :: u1).length = l + (tryQuoted k).length + u1.length + 1 := by
    rw [List.length_append, hKl]; simp; omega
  have hK1 : 1 ≤ (tryQuoted k).length := by rw [hY]; simp
  refine .inr ⟨hg, .inr (.inr ⟨k, pinit u1, tok_label_newline (indent_delims l) hkk.1 hne, hv1, hv2, ?_, ?_⟩)⟩
  · have := pinit_length u1
    omega
  have kids : ∀ {ds' : List (Str × PN)}, CutKids (l + 1) (u1.drop (l + 2)) ds' ds → ∀ cs,
      CutKids l (indentStr true l ++ tryQuoted k ++ 10 :: u1) [(k, .mk false [] ds')] ((k, .mk a [] ds) :: cs) := by
    intro ds' h cs
    refine .group (by omega) hl' hds ?_
    rw [List.drop_append, List.drop_of_length_le (by omega), hKl]
    have : 2 * l + (tryQuoted k).length + 3 - (l + (tryQuoted k).length) = l + 2 + 1 := by omega
    rw [this]
    simpa using h
  have empty : (pinit u1).good = false → u1.length ≤ l → ∀ f, (pinit u1).rest.length + 1 ≤ f →
      Outcome (indentStr true l ++ tryQuoted k ++ 10 :: u1) (readNode f (pinit u1)) fun n' => ∀ cs,
        CutKids l (indentStr true l ++ tryQuoted k ++ 10 :: u1) [(k, n')] ((k, .mk a [] ds) :: cs) := by
    intro hg hu1 f hf
    obtain ⟨f, rfl⟩ : ∃ g, f = g + 1 := ⟨f - 1, by omega⟩
    obtain ⟨s', r1, r2⟩ := readNode_not_good hg f
    exact .inr (.inr ⟨_, s', r1, r2, kids (.stop (by simp; omega))⟩)
  rcases prefix_append_cases h2 with h | ⟨u2, rfl, h3⟩
  · exact empty (pinit_delims_not_good fun c hc => indent_delims l c (h.subset hc)) (by have := h.length_le; omega)
  rcases prefix_cons_cases h3 with rfl | ⟨u2, rfl, h4⟩
  · exact empty (by rw [List.append_nil]; exact pinit_delims_not_good (indent_delims l)) (by simp [hil])
  intro f hf
  have hrest : (pinit (indentStr true l ++ 123 :: u2)).rest = 123 :: u2 := by
    rw [pinit_delims (indent_delims l), pinit_cons (by decide)]
  rw [hrest] at hf
  obtain ⟨f, rfl⟩ : ∃ g, f = g + 1 := ⟨f - 1, by omega⟩
  simp at hf
  have hread : readNode (f + 1) (pinit (indentStr true l ++ 123 :: u2)) = (do
      let (cs, s2) ← readChildren f (pinit u2) b!"{"
      .ok (.mk false [] cs, s2)) := by
    rw [readNode, tok_op (R := u2) (op := 123) (indent_delims l) (by simp)]
    rfl
  rw [hread]
  have hdrop : (indentStr true l ++ 123 :: u2).drop (l + 2) = u2.drop 1 := by
    rw [List.drop_append, List.drop_of_length_le (by omega), hil]
    have : l + 2 - l = 2 := by omega
    rw [this]; rfl
  rcases prefix_cons_cases h4 with rfl | ⟨u3, rfl, h5⟩
  · obtain ⟨f, rfl⟩ : ∃ g, f = g + 1 := ⟨f - 1, by omega⟩
    refine .inr (.inr ⟨.mk false [] [], pinit [], by rw [readChildren_not_good pinit_nil_not_good]; rfl, pinit_nil_not_good, ?_⟩)
    refine kids (.stop ?_)
    rw [hdrop]; simp
  · have h10 : pinit (10 :: u3) = pinit u3 := pinit_delims (dl := [10]) (by decide)
    rw [h10]
    simp at hf
    rcases readChildren_cut hk hn hc l u3 h5 f b!"{" (by decide) (by omega) with ⟨r1, r2⟩ | ⟨r1, r2⟩ | ⟨cs', s', r1, r2, r3⟩
    · refine .inl ⟨by rw [r1]; rfl, ?_⟩
      have := getLast?_append_some (a := indentStr true l ++ tryQuoted k ++ 10 :: (indentStr true l ++ [123, 10])) r2
      simpa using this
    · refine .inr (.inl ⟨by rw [r1]; rfl, ?_⟩)
      have := getLast?_append_some (a := indentStr true l ++ tryQuoted k ++ 10 :: (indentStr true l ++ [123, 10])) r2
      simpa using this
    · refine .inr (.inr ⟨_, s', by rw [r1]; rfl, r2, kids ?_⟩)
      rw [hdrop]
      exact r3

theorem cutReads {n : PN} (hn : PrintableTree n) : CutReads n := by
  induction hn with
  | leaf hv => exact cutReads_leaf hv
  | node hcs hk hn ih => exact cutReads_group hcs hk (fun kn h => readsBack (hn kn h)) ih

/-- Reading a beginning of the text of a file. -/
theorem parse_cut {cs : List (Str × PN)} (hk : ∀ kn ∈ cs, PrintableKey kn.1) (hn : ∀ kn ∈ cs, PrintableTree kn.2) :
    ∀ u, u <+: writeNodes true 0 cs →
    (getPropToken (pinit u) = .diverges ∧ u.getLast? = some 92) ∨
    ∃ t s, getPropToken (pinit u) = .ok (t, s) ∧ ∀ f, u.length < f →
      (parseLoop f s t = .diverges ∧ u.getLast? = some 92) ∨ (parseLoop f s t = .throws .flutError ∧ u.getLast? = some 34) ∨
      ∃ cs', parseLoop f s t = .ok cs' ∧ CutKids 0 u cs' cs := by
  have fin : ∀ (s : CharStream) (f : Nat), parseLoop (f + 1) s [] = .ok [] := by
    intro s f
    simp [parseLoop, isValidLabel]
  have none : ∀ {cs : List (Str × PN)} {u : Str}, (pinit u).good = false → u.length ≤ 0 →
    (getPropToken (pinit u) = .diverges ∧ u.getLast? = some 92) ∨
    ∃ t s, getPropToken (pinit u) = .ok (t, s) ∧ ∀ f, u.length < f →
      (parseLoop f s t = .diverges ∧ u.getLast? = some 92) ∨ (parseLoop f s t = .throws .flutError ∧ u.getLast? = some 34) ∨
      ∃ cs', parseLoop f s t = .ok cs' ∧ CutKids 0 u cs' cs := by
    intro cs u hg hu
    refine .inr ⟨[], _, getPropToken_not_good (by simp [hg]), ?_⟩
    intro f hf
    obtain ⟨f, rfl⟩ : ∃ g, f = g + 1 := ⟨f - 1, by omega⟩
    exact .inr (.inr ⟨[], fin _ _, .stop (by omega)⟩)
  induction cs with
  | nil =>
    intro u hu
    have : u = [] := by simpa [writeNodes] using hu
    subst this
    exact none (by decide) (by simp)
  | cons kn cs ih =>
    obtain ⟨k, n⟩ := kn
    intro u hu
    have hkk : PrintableKey k := hk (k, n) (by simp)
    have hnn : PrintableTree n := hn (k, n) (by simp)
    obtain ⟨hv, _, _⟩ := isValidLabel_key hkk
    rw [writeNodes] at hu
    rcases prefix_append_cases' hu with ⟨h, hlt⟩ | ⟨u', rfl, hu'⟩
    · rcases cutReads hnn k 0 u hkk h hlt with ⟨hg, h⟩ | ⟨hg, h | ⟨s, h1, h2, h3, h4⟩ | ⟨k', s, h1, h2, h3, h4, h5⟩⟩
      · exact none hg h
      · exact .inl h
      · refine .inr ⟨[], s, h1, ?_⟩
        intro f hf
        obtain ⟨f, rfl⟩ : ∃ g, f = g + 1 := ⟨f - 1, by omega⟩
        exact .inr (.inr ⟨[], fin _ _, .stop (by omega)⟩)
      · refine .inr ⟨k', s, h1, ?_⟩
        intro f hf
        obtain ⟨f, rfl⟩ : ∃ g, f = g + 2 := ⟨f - 2, by omega⟩
        rw [parseLoop, h2]
        simp only [Res.bind_ok, if_true]
        rcases h5 _ (Nat.le_refl _) with ⟨r1, r2⟩ | ⟨r1, r2⟩ | ⟨n', s', r1, r2, r3⟩
        · exact .inl ⟨by rw [r1]; rfl, r2⟩
        · exact .inr (.inl ⟨by rw [r1]; rfl, r2⟩)
        · refine .inr (.inr ⟨[(k', n')], ?_, r3 cs⟩)
          rw [r1, Res.bind_ok]
          dsimp only
          rw [getPropToken_not_good (by simp [r2]), Res.bind_ok]
          dsimp only
          rw [fin]
          rfl
    · obtain ⟨s, g1, g2, g3, g4, g5⟩ := readsBack hnn k 0 u' hkk
      refine .inr ⟨k, s, g1, ?_⟩
      intro f hf
      obtain ⟨f, rfl⟩ : ∃ g, f = g + 1 := ⟨f - 1, by omega⟩
      rw [List.length_append] at hf
      rw [parseLoop, hv]
      simp only [Res.bind_ok, if_true, g3 _ g4]
      rcases ih (fun x hx => hk x (by simp [hx])) (fun x hx => hn x (by simp [hx])) u' hu' with ⟨r1, r2⟩ | ⟨t, s', r1, r2⟩
      · exact .inl ⟨by rw [r1]; rfl, getLast?_append_some r2⟩
      · rw [r1, Res.bind_ok]
        dsimp only
        rcases r2 f (by omega) with ⟨q1, q2⟩ | ⟨q1, q2⟩ | ⟨cs', q1, q2⟩
        · exact .inl ⟨by rw [q1]; rfl, getLast?_append_some q2⟩
        · exact .inr (.inl ⟨by rw [q1]; rfl, getLast?_append_some q2⟩)
        · exact .inr (.inr ⟨_, by rw [q1]; rfl, .whole (PN.sameTree_clear n) q2⟩)

end Flut
