import Verif.Model.PropText
import Verif.Proofs.Numbers
import Verif.Proofs.Trim

/-! # Lemmas about the prop text parser and writer -/

namespace Flut

open Spec CharStream

/-! ## Tokens of a 7-bit text are 7-bit -/

/-- All characters are below 128. -/
def Low (s : Str) : Prop := ∀ c ∈ s, c.toNat < 128

theorem Low.append {a b : Str} (ha : Low a) (hb : Low b) : Low (a ++ b) := by
  intro c hc
  rcases List.mem_append.1 hc with h | h
  · exact ha c h
  · exact hb c h

theorem Low.suffix {a b : Str} (h : Low (a ++ b)) : Low b := fun c hc => h c (by simp [hc])
theorem Low.prefix {a b : Str} (h : Low (a ++ b)) : Low a := fun c hc => h c (by simp [hc])

theorem low_nil : Low [] := by simp [Low]
theorem low_singleton {c : Byte} (h : c.toNat < 128) : Low [c] := by simpa [Low] using h

theorem low_drop {a : Str} (h : Low a) (n : Nat) : Low (a.drop n) :=
  fun c hc => h c (List.mem_of_mem_drop hc)

theorem decodeChar_low {l : Str} {ch : Byte} {len : Nat} (hl : Low l) (h : decodeChar l = .ok (ch, len)) :
    ch.toNat < 128 := by
  unfold decodeChar at h
  split at h
  · simp at h
  next c rest =>
    have hc := hl c (by simp)
    split at h
    · simp at h; rw [← h.1]; exact hc
    · split at h
      · simp at h; rw [← h.1]; exact hc
      next d _ =>
        have oct : ∀ r : Nat × Nat, (if 1 < r.2 ∧ 0 < r.1 ∧ r.1 < 32 then
            (Res.ok (UInt8.ofNat r.1, r.2) : Res (Byte × Nat)) else .ok (63, r.2)) = .ok (ch, len) →
            ch.toNat < 128 := by
          intro r h
          split at h
          next hv =>
            simp at h
            rw [← h.1]
            simp
            omega
          · simp at h; rw [← h.1]; decide
        repeat' (first | exact oct _ h | split at h)
        all_goals (simp at h; rw [← h.1]; decide)

theorem quoteLoop_low (q : Byte) (n : Nat) : ∀ (s rest : Str) (r : Str × Str), Low s → Low rest →
    quoteLoop q n s rest = .ok r → Low r.1 := by
  induction n with
  | zero => intro s rest r _ _ h; simp [quoteLoop] at h
  | succ n ih =>
    intro s rest r hs hr h
    cases rest with
    | nil => simp [quoteLoop] at h; subst h; exact hs
    | cons c cs =>
      simp only [quoteLoop] at h
      split at h
      · simp at h; subst h; exact hs
      · split at h
        · obtain ⟨⟨ch, len⟩, hd, h⟩ := Res.bind_eq_ok.1 h
          simp only at h
          split at h
          · simp at h
          · exact ih _ _ _ (hs.append (low_singleton (decodeChar_low hr hd))) (low_drop hr _) h
        · exact ih _ _ _ (hs.append (low_singleton (hr c (by simp)))) (fun d hd => hr d (by simp [hd])) h

theorem tokenLoop_low (d o q : Str) (n : Nat) : ∀ (s pend rest : Str) (r : Str × Str), Low s → Low pend →
    Low rest → tokenLoop d o q n s pend rest = .ok r → Low r.1 := by
  induction n with
  | zero => intro s pend rest r _ _ _ h; simp [tokenLoop] at h
  | succ n ih =>
    intro s pend rest r hs hp hr h
    cases rest with
    | nil => simp [tokenLoop] at h; subst h; exact hs.append hp
    | cons c cs =>
      have hcs : Low cs := fun d hd => hr d (by simp [hd])
      cases h1 : strchr d c with
      | true => rw [tokenLoop_delim h1] at h; simp at h; subst h; exact hs.append hp
      | false =>
        cases h2 : strchr q c with
        | true =>
          rw [tokenLoop_quote h1 h2] at h
          obtain ⟨x, hx, h⟩ := Res.bind_eq_ok.1 h
          have hx1 := quoteLoop_low _ _ _ _ _ hs hcs hx
          obtain ⟨u, hu⟩ := (quoteLoop_enough _ _ _ _ _ hx).2
          split at h
          · simp at h; subst h; exact hx1
          · exact ih _ _ _ _ hx1 low_nil (Low.suffix (a := u) (hu ▸ hcs)) h
        | false =>
          cases h3 : strchr o c with
          | true =>
            rw [tokenLoop_op h1 h2 h3] at h
            split at h
            · simp at h; subst h; exact low_singleton (hr c (by simp))
            · simp at h; subst h; exact hs.append hp
          | false =>
            rw [tokenLoop_plain h1 h2 h3] at h
            exact ih _ _ _ _ hs (hp.append (low_singleton (hr c (by simp)))) hcs h

/-- Each character of a token was read from the text. -/
theorem quoteLoop_length (q : Byte) (n : Nat) : ∀ (s rest : Str) (r : Str × Str),
    quoteLoop q n s rest = .ok r → r.1.length + r.2.length ≤ s.length + rest.length := by
  induction n with
  | zero => intro s rest r h; simp [quoteLoop] at h
  | succ n ih =>
    intro s rest r h
    cases rest with
    | nil => simp [quoteLoop] at h; subst h; simp
    | cons c cs =>
      by_cases h1 : c = q
      · subst h1; rw [quoteLoop_close] at h; simp at h; subst h; simp
      by_cases h2 : c = 92
      · subst h2
        have hq : q ≠ 92 := fun h => h1 h.symm
        cases cs with
        | nil => rw [quoteLoop_lone hq] at h; simp at h
        | cons d ds =>
          obtain ⟨ch, len, hd, hl1, hl2, -⟩ := @decodeChar_backslash d ds
          rw [quoteLoop_esc hq hd (by simpa using hl2)] at h
          have := ih _ _ _ h
          simp at this ⊢
          omega
      · rw [quoteLoop_char h1 h2] at h
        have := ih _ _ _ h
        simp at this ⊢
        omega

theorem tokenLoop_length (d o q : Str) (n : Nat) : ∀ (s pend rest : Str) (r : Str × Str),
    tokenLoop d o q n s pend rest = .ok r →
    r.1.length + r.2.length ≤ s.length + pend.length + rest.length := by
  induction n with
  | zero => intro s pend rest r h; simp [tokenLoop] at h
  | succ n ih =>
    intro s pend rest r h
    cases rest with
    | nil => simp [tokenLoop] at h; subst h; simp
    | cons c cs =>
      cases h1 : strchr d c with
      | true => rw [tokenLoop_delim h1] at h; simp at h; subst h; simp
      | false =>
        cases h2 : strchr q c with
        | true =>
          rw [tokenLoop_quote h1 h2] at h
          obtain ⟨x, hx, h⟩ := Res.bind_eq_ok.1 h
          have hx1 := quoteLoop_length _ _ _ _ _ hx
          split at h
          · simp at h; subst h; simp; omega
          · have := ih _ _ _ _ h
            simp at this ⊢; omega
        | false =>
          cases h3 : strchr o c with
          | true =>
            rw [tokenLoop_op h1 h2 h3] at h
            split at h
            next he =>
              simp at h; subst h; simp; omega
            · simp at h; subst h; simp
          | false =>
            rw [tokenLoop_plain h1 h2 h3] at h
            have := ih _ _ _ _ h
            simp at this ⊢; omega

/-- A token that starts at a non-delimiter consumes something. -/
theorem tokenLoop_progress {d o q : Str} {n : Nat} {c : Byte} {cs : Str} {r : Str × Str}
    (hc : strchr d c = false) (h : tokenLoop d o q n [] [] (c :: cs) = .ok r) : r.2.length ≤ cs.length := by
  cases n with
  | zero => simp [tokenLoop] at h
  | succ n =>
    cases h2 : strchr q c with
    | true =>
      rw [tokenLoop_quote hc h2] at h
      obtain ⟨x, hx, h⟩ := Res.bind_eq_ok.1 h
      obtain ⟨u, hu⟩ := (quoteLoop_enough _ _ _ _ _ hx).2
      have hul := congrArg List.length hu
      split at h
      · simp at h; subst h; simp
      · obtain ⟨v, hv⟩ := (tokenLoop_enough _ _ _ _ _ _ _ _ h).2
        have hvl := congrArg List.length hv
        simp at hul hvl; omega
    | false =>
      cases h3 : strchr o c with
      | true => rw [tokenLoop_op hc h2 h3] at h; simp at h; subst h; simp
      | false =>
        rw [tokenLoop_plain hc h2 h3] at h
        obtain ⟨v, hv⟩ := (tokenLoop_enough _ _ _ _ _ _ _ _ h).2
        have hvl := congrArg List.length hv
        simp at hvl; omega

/-! ## Totality of the parser -/

/-- Streams on which the parser works: 7-bit, positioned at a non-delimiter while `good()`, and not ending in
a backslash. -/
structure PropStream (s : CharStream) : Prop where
  delims : s.delims = propDelims
  low : Low s.rest
  noBackslash : s.rest.getLast? ≠ some 92
  ready : s.good = true → ∃ c cs, s.rest = c :: cs ∧ strchr propDelims c = false

theorem getLast?_suffix {u v : Str} (h : (u ++ v).getLast? ≠ some 92) : v.getLast? ≠ some 92 := by
  intro hv
  rw [List.getLast?_append, hv] at h
  exact h rfl

theorem skipDelims_ready (s : CharStream) (hd : s.delims = propDelims) :
    s.skipDelims.good = true → ∃ c cs, s.skipDelims.rest = c :: cs ∧ strchr propDelims c = false := by
  intro hg
  have e : s.skipDelims.rest = s.rest.dropWhile (strchr s.delims) := by
    simp only [skipDelims, testEof]; split <;> rfl
  cases h : s.rest.dropWhile (strchr s.delims) with
  | nil =>
    have h2 := (skipDelims_spec s).2 (by rw [e, h])
    simp [good, h2] at hg
  | cons c cs =>
    refine ⟨c, cs, by rw [e, h], ?_⟩
    have := List.head?_dropWhile_not (strchr s.delims) s.rest
    rw [h, hd] at this
    simpa using this

theorem PropStream.forward {s s' : CharStream} (h : PropStream s) (hf : Forward s s')
    (hr : s'.good = true → ∃ c cs, s'.rest = c :: cs ∧ strchr propDelims c = false) : PropStream s' := by
  obtain ⟨⟨u, hu⟩, -, -, hd⟩ := hf
  exact ⟨by rw [hd, h.delims], Low.suffix (a := u) (hu ▸ h.low), getLast?_suffix (u := u) (hu ▸ h.noBackslash), hr⟩

theorem getToken_prop {s : CharStream} (h : PropStream s) : ∃ t s', s.getToken propOperators propQuotes = .ok (t, s') ∧
    PropStream s' ∧ Low t ∧ t.length + s'.rest.length ≤ s.rest.length ∧
    (s.good = true → s'.rest.length < s.rest.length) := by
  have hq : ∀ c ∈ propQuotes, c = 34 ∨ c = 39 := by simp [propQuotes]
  by_cases hg : s.good = true
  · obtain ⟨c, cs, hrest, hc⟩ := h.ready hg
    rcases tokenLoop_spec (d := s.delims) (o := propOperators) hq s.rest.length [] [] s.rest (Nat.le_refl _) with
      ⟨h1, -⟩ | ⟨-, t, r, ⟨u, hu⟩, h3⟩
    · exact absurd (loneBackslash_getLast h1) h.noBackslash
    · have h4 := h3 (s.rest.length + 1) (by omega)
      have hsk := skipDelims_spec { s with rest := r }
      have hf : Forward s ({ s with rest := r } : CharStream).skipDelims :=
        Forward.trans (b := { s with rest := r }) ⟨⟨u, hu⟩, id, id, rfl⟩ hsk.1
      have hlen : ({ s with rest := r } : CharStream).skipDelims.rest.length ≤ r.length := by
        obtain ⟨v, hv⟩ := hsk.1.1
        have := congrArg List.length hv
        simp at this; omega
      refine ⟨t, _, getToken_of hg h4, h.forward hf (skipDelims_ready _ h.delims), ?_, ?_, ?_⟩
      · exact tokenLoop_low _ _ _ _ _ _ _ _ low_nil low_nil h.low h4
      · have := tokenLoop_length _ _ _ _ _ _ _ _ h4
        simp at this; omega
      · intro _
        rw [hrest, h.delims] at h4
        have := tokenLoop_progress hc h4
        rw [hrest]; simp at this ⊢; omega
  · have hsk := skipDelims_spec s
    refine ⟨[], s.skipDelims, by simp [getToken, getTokenN, hg], h.forward hsk.1 (skipDelims_ready _ h.delims),
      low_nil, ?_, fun h => absurd h hg⟩
    obtain ⟨v, hv⟩ := hsk.1.1
    have := congrArg List.length hv
    simp at this ⊢; omega

theorem getLine_prop {s : CharStream} (h : PropStream s) : PropStream s.getLine.2 ∧
    s.getLine.2.rest.length ≤ s.rest.length := by
  have key : ∀ k, PropStream (s.processEnd k) ∧ (s.processEnd k).rest.length ≤ s.rest.length := by
   intro k
   simp only [processEnd]
   split
   · refine ⟨⟨h.delims, h.low, h.noBackslash, fun hg => by simp [good] at hg⟩, by simp⟩
   · have hsk := skipDelims_spec { s with rest := s.rest.drop k }
     have hf : Forward s ({ s with rest := s.rest.drop k } : CharStream).skipDelims :=
       Forward.trans (b := { s with rest := s.rest.drop k })
         ⟨⟨s.rest.take k, (List.take_append_drop k s.rest).symm⟩, id, id, rfl⟩ hsk.1
     refine ⟨h.forward hf (skipDelims_ready _ h.delims), ?_⟩
     obtain ⟨v, hv⟩ := hf.1
     have := congrArg List.length hv
     simp at this ⊢; omega
  exact key _

theorem trimStr_total (t : Str) : ∃ r, trimStr t = .ok r ∧ (Low t → Low r) ∧ r.length ≤ t.length := by
  obtain ⟨r, hr, a, b, hab, -⟩ := trimStr_isTrim t defaultTrim
  refine ⟨r, hr, fun hl => ?_, ?_⟩
  · rw [hab] at hl
    exact Low.suffix (Low.prefix hl)
  · rw [hab]; simp; omega

theorem getPropTokenN_prop (n : Nat) : ∀ {s : CharStream}, PropStream s → s.rest.length < n →
    ∃ t s', getPropTokenN n s = .ok (t, s') ∧ PropStream s' ∧ Low t ∧ s'.rest.length ≤ s.rest.length ∧
    (s.good = true → s'.rest.length < s.rest.length) ∧ (∀ m, s.rest.length < m → getPropTokenN m s = .ok (t, s')) := by
  induction n with
  | zero => intro s _ h; omega
  | succ n ih =>
    intro s hs hn
    obtain ⟨t, s', h1, h2, h3, h4, h5⟩ := getToken_prop hs
    by_cases ht : t = b!"%"
    · have hl := getLine_prop h2
      have hlt : s'.getLine.2.rest.length < s.rest.length := by
        have := hl.2
        rw [ht] at h4
        simp at h4; omega
      obtain ⟨t2, s2, g1, g2, g3, g4, g5, g6⟩ := ih hl.1 (by omega)
      refine ⟨t2, s2, by simp [getPropTokenN, h1, ht, g1], g2, g3, by omega, fun _ => by omega, ?_⟩
      intro m hm
      cases m with
      | zero => omega
      | succ m => simp [getPropTokenN, h1, ht, g6 m (by omega)]
    · obtain ⟨r, hr, hlow, -⟩ := trimStr_total t
      refine ⟨r, s', by simp [getPropTokenN, h1, ht, hr], h2, hlow h3, by omega, h5, ?_⟩
      intro m hm
      cases m with
      | zero => omega
      | succ m => simp [getPropTokenN, h1, ht, hr]

theorem getPropToken_prop {s : CharStream} (hs : PropStream s) :
    ∃ t s', getPropToken s = .ok (t, s') ∧ PropStream s' ∧ Low t ∧ s'.rest.length ≤ s.rest.length ∧
    (s.good = true → s'.rest.length < s.rest.length) := by
  obtain ⟨t, s', h1, h2, h3, h4, h5, -⟩ := getPropTokenN_prop _ hs (Nat.lt_succ_self _)
  exact ⟨t, s', h1, h2, h3, h4, h5⟩

theorem isValidLabel_low {t : Str} (h : Low t) : ∃ b, isValidLabel t = .ok b := by
  cases t with
  | nil => exact ⟨_, rfl⟩
  | cons c cs =>
    have := h c (by simp)
    exact ⟨isAlphaC c, by simp only [isValidLabel]; rw [if_neg (by omega)]⟩

/-- When the stream is not good the token is empty. -/
theorem getPropToken_not_good {s : CharStream} (hg : s.good ≠ true) :
    getPropToken s = .ok ([], s.skipDelims) := by
  simp [getPropToken, getPropTokenN, getToken, getTokenN, hg, trimStr, findFirst]

theorem read_total (n : Nat) : ∀ {s : CharStream}, PropStream s → s.rest.length < n →
    (readNode n s = .throws .flutError ∨ ∃ nd s', readNode n s = .ok (nd, s') ∧ PropStream s' ∧
      s'.rest.length ≤ s.rest.length) ∧
    ∀ t, (readChildren n s t = .throws .flutError ∨ ∃ cs s', readChildren n s t = .ok (cs, s') ∧ PropStream s' ∧
      s'.rest.length ≤ s.rest.length) := by
  induction n with
  | zero => intro s _ h; omega
  | succ n ih =>
    intro s hs hn
    constructor
    · obtain ⟨t, s1, h1, h2, h3, h4, h5⟩ := getPropToken_prop hs
      simp only [readNode, h1, Res.bind_ok]
      split
      · obtain ⟨v, s2, g1, g2, g3, g4, g5⟩ := getPropToken_prop h2
        exact Or.inr ⟨_, s2, by rw [g1]; rfl, g2, by omega⟩
      · split
        next ht =>
          by_cases hg : s.good = true
          · have := h5 hg
            rcases (ih h2 (by omega)).2 t with g | ⟨cs, s2, g1, g2, g3⟩
            · exact Or.inl (by simp [g])
            · exact Or.inr ⟨_, s2, by rw [g1]; rfl, g2, by omega⟩
          · rw [getPropToken_not_good hg] at h1
            simp at h1
            rw [← h1.1] at ht
            simp at ht
        · exact Or.inr ⟨_, s1, rfl, h2, by omega⟩
    · intro t
      by_cases hg : (s.good && decide (t ≠ b!"}")) = true
      · have hg' : s.good = true := by simp at hg; simp [hg.1]
        obtain ⟨t', s1, h1, h2, h3, h4, h5⟩ := getPropToken_prop hs
        have h5 := h5 hg'
        obtain ⟨b, hb⟩ := isValidLabel_low h3
        simp only [readChildren, if_pos hg, h1, Res.bind_ok, hb]
        cases b with
        | true =>
          simp only [if_true]
          rcases (ih h2 (by omega)).1 with g | ⟨nd, s2, g1, g2, g3⟩
          · exact Or.inl (by simp [g])
          · rcases (ih g2 (by omega)).2 t' with k | ⟨cs, s3, k1, k2, k3⟩
            · exact Or.inl (by simp [g1, k])
            · exact Or.inr ⟨_, s3, by rw [g1, Res.bind_ok]; simp only; rw [k1]; rfl, k2, by omega⟩
        | false =>
          simp only [Bool.false_eq_true, if_false]
          split
          · exact Or.inl rfl
          · rcases (ih h2 (by omega)).2 t' with k | ⟨cs, s3, k1, k2, k3⟩
            · exact Or.inl k
            · exact Or.inr ⟨cs, s3, k1, k2, by omega⟩
      · simp only [readChildren, if_neg hg]
        exact Or.inr ⟨[], s, rfl, hs, by omega⟩

theorem parseLoop_total (n : Nat) : ∀ {s : CharStream} {t : Str}, PropStream s → Low t →
    (s.rest.length + 1 < n ∨ (0 < n ∧ t = [])) →
    parseLoop n s t = .throws .flutError ∨ ∃ cs, parseLoop n s t = .ok cs := by
  induction n with
  | zero => intro s t _ _ h; omega
  | succ n ih =>
    intro s t hs hl hn
    by_cases ht : t = []
    · subst ht
      exact Or.inr ⟨[], by simp [parseLoop, isValidLabel]⟩
    have hn : s.rest.length + 1 < n + 1 := by simpa [ht] using hn
    obtain ⟨b, hb⟩ := isValidLabel_low hl
    simp only [parseLoop, hb, Res.bind_ok]
    cases b with
    | false => exact Or.inr ⟨[], rfl⟩
    | true =>
      simp only [if_true]
      rcases (read_total (s.rest.length + 1) hs (by omega)).1 with g | ⟨nd, s1, g1, g2, g3⟩
      · exact Or.inl (by rw [g]; rfl)
      · obtain ⟨t', s2, h1, h2, h3, h4, h5⟩ := getPropToken_prop g2
        have : s2.rest.length + 1 < n ∨ (0 < n ∧ t' = []) := by
          by_cases hg : s1.good = true
          · have := h5 hg
            omega
          · rw [getPropToken_not_good hg] at h1
            simp at h1
            exact Or.inr ⟨by omega, h1.1⟩
        rw [g1, Res.bind_ok]
        simp only [h1, Res.bind_ok]
        rcases ih h2 h3 this with k | ⟨cs, k⟩
        · exact Or.inl (by rw [k]; rfl)
        · exact Or.inr ⟨_, by rw [k]; rfl⟩

theorem parseStream_total {s : CharStream} (hs : PropStream s) :
    parseStream s = .throws .flutError ∨ ∃ n, parseStream s = .ok n := by
  obtain ⟨t, s1, h1, h2, h3, h4, h5⟩ := getPropToken_prop hs
  have : s1.rest.length + 1 < s.rest.length + 1 ∨ (0 < s.rest.length + 1 ∧ t = []) := by
    by_cases hg : s.good = true
    · have := h5 hg
      omega
    · rw [getPropToken_not_good hg] at h1
      simp at h1
      exact Or.inr ⟨by omega, h1.1⟩
  simp only [parseStream, h1, Res.bind_ok]
  rcases parseLoop_total _ h2 h3 this with k | ⟨cs, k⟩
  · exact Or.inl (by rw [k]; rfl)
  · exact Or.inr ⟨_, by rw [k]; rfl⟩

theorem init_propStream {buf : Str} (hl : Low buf) (hb : buf.getLast? ≠ some 92) :
    PropStream (init buf propDelims) := by
  have hsk := skipDelims_spec { rest := buf, delims := propDelims : CharStream }
  obtain ⟨⟨u, hu⟩, -, -, hd⟩ := hsk.1
  exact ⟨hd, Low.suffix (a := u) (hu ▸ hl), getLast?_suffix (u := u) (hu ▸ hb), skipDelims_ready _ rfl⟩

end Flut
