import Verif.Proofs.CharStream

/-! # Sequences of `char_stream` calls -/

namespace Flut

open Spec CharStream

/-- The effect of any call: the position moves forward, set flags stay set, and `eof` is set at the end of the
buffer if it was before. -/
def Forward (s s' : CharStream) : Prop :=
  (∃ u, s.rest = u ++ s'.rest) ∧ (s.fail = true → s'.fail = true) ∧ (s.eof = true → s'.eof = true) ∧
    s'.delims = s.delims

theorem Forward.refl (s : CharStream) : Forward s s := ⟨⟨[], rfl⟩, id, id, rfl⟩

theorem Forward.trans {a b c : CharStream} (h1 : Forward a b) (h2 : Forward b c) : Forward a c := by
  obtain ⟨⟨u, hu⟩, f1, e1, d1⟩ := h1
  obtain ⟨⟨v, hv⟩, f2, e2, d2⟩ := h2
  exact ⟨⟨u ++ v, by simp [hu, hv]⟩, fun h => f2 (f1 h), fun h => e2 (e1 h), by rw [d2, d1]⟩

/-- `eof` is set whenever the position is at the end. -/
def EofInv (s : CharStream) : Prop := s.rest = [] → s.eof = true

theorem testEof_spec (s : CharStream) : Forward s s.testEof ∧ EofInv s.testEof := by
  by_cases h : s.rest = []
  · simp [testEof, h, Forward, EofInv]
  · simp [testEof, h, EofInv, Forward.refl]

theorem skipDelims_spec (s : CharStream) : Forward s s.skipDelims ∧ EofInv s.skipDelims := by
  have h := testEof_spec { s with rest := s.rest.dropWhile (strchr s.delims) }
  refine ⟨Forward.trans (b := { s with rest := s.rest.dropWhile (strchr s.delims) }) ⟨⟨s.rest.takeWhile (strchr s.delims), ?_⟩, id, id, rfl⟩ h.1, h.2⟩
  exact List.takeWhile_append_dropWhile.symm

theorem processEnd_spec (s : CharStream) (n : Nat) (hi : EofInv s) :
    Forward s (s.processEnd n) ∧ EofInv (s.processEnd n) := by
  unfold processEnd
  split
  · exact ⟨⟨⟨[], rfl⟩, fun _ => rfl, id, rfl⟩, hi⟩
  · have h := skipDelims_spec { s with rest := s.rest.drop n }
    exact ⟨Forward.trans (b := { s with rest := s.rest.drop n }) ⟨⟨s.rest.take n, (List.take_append_drop n s.rest).symm⟩, id, id, rfl⟩ h.1, h.2⟩

theorem getToken_spec (s : CharStream) (o q : Str) : s.getToken o q = .diverges ∨
    ∃ t s', s.getToken o q = .ok (t, s') ∧ Forward s s' ∧ EofInv s' := by
  unfold getToken getTokenN
  by_cases hg : s.good = true
  · rw [if_pos hg]
    rcases tokenLoop_ok_or_diverges s.delims o q (s.rest.length + 2) [] [] s.rest with h | ⟨⟨t, r⟩, h⟩
    · rw [h]; exact Or.inl rfl
    · have h2 := (tokenLoop_enough _ _ _ _ _ _ _ _ h).2
      rw [h]
      have h3 := skipDelims_spec { s with rest := r }
      exact Or.inr ⟨t, _, rfl, Forward.trans (b := { s with rest := r }) ⟨h2, id, id, rfl⟩ h3.1, h3.2⟩
  · rw [if_neg hg]
    exact Or.inr ⟨[], _, rfl, skipDelims_spec s⟩

theorem StreamOp.run_spec (bits : Nat) (op : StreamOp) (s : CharStream) (hi : EofInv s)
    (h7 : op = .str → ∀ c ∈ s.rest, c.toNat < 128) :
    op.run bits s = .diverges ∧ (∃ o q, op = .token o q) ∨
    ∃ s', op.run bits s = .ok s' ∧ Forward s s' ∧ EofInv s' := by
  cases op with
  | token o q =>
    rcases getToken_spec s o q with h | ⟨t, s', h, h1, h2⟩
    · exact Or.inl ⟨by simp [StreamOp.run, h], o, q, rfl⟩
    · exact Or.inr ⟨s', by simp [StreamOp.run, h], h1, h2⟩
  | line => exact Or.inr ⟨_, rfl, processEnd_spec s _ hi⟩
  | long => exact Or.inr ⟨_, rfl, processEnd_spec s _ hi⟩
  | peekc => exact Or.inr ⟨_, rfl, Forward.refl s, hi⟩
  | str =>
    refine Or.inr ⟨s.processEnd (s.rest.takeWhile fun c => c != 0 && !isSpaceC c).length, ?_,
      processEnd_spec s _ hi⟩
    have : ¬ ((s.rest.takeWhile fun c => c != 0 && !isSpaceC c).any
        (fun c => decide (128 ≤ c.toNat)) = true) := by
      intro h
      obtain ⟨c, hc, h⟩ := List.any_eq_true.1 h
      have := h7 rfl c ((List.takeWhile_sublist _).mem hc)
      simp at h
      omega
    simp only [StreamOp.run, readStr, if_neg this]
    rfl
  | getc =>
    refine Or.inr ?_
    by_cases hg : s.good = true
    · cases hr : s.rest with
      | nil =>
        have := hi hr
        simp [good, this] at hg
      | cons c cs =>
        refine ⟨({ s with rest := cs } : CharStream).testEof, ?_, ?_, (testEof_spec _).2⟩
        · simp [StreamOp.run, hg, CharStream.getc, hr]
        · exact Forward.trans (b := { s with rest := cs }) ⟨⟨[c], by simp [hr]⟩, id, id, rfl⟩
            (testEof_spec { s with rest := cs }).1
    · exact ⟨s, by simp [StreamOp.run, hg], Forward.refl s, hi⟩

theorem runOps_spec (bits : Nat) (ops : List StreamOp) : ∀ (s : CharStream), EofInv s →
    (∀ c ∈ s.rest, c.toNat < 128) →
    (runOps bits ops s = .diverges ∧ ∃ o q, StreamOp.token o q ∈ ops) ∨
      ∃ s', runOps bits ops s = .ok s' ∧ Forward s s' ∧ EofInv s' := by
  induction ops with
  | nil => intro s hi h7; exact Or.inr ⟨s, rfl, Forward.refl s, hi⟩
  | cons op ops ih =>
    intro s hi h7
    rcases op.run_spec bits s hi (fun _ => h7) with ⟨h, o, q, rfl⟩ | ⟨s1, h, f1, i1⟩
    · exact Or.inl ⟨by simp [runOps, h], o, q, by simp⟩
    · have h71 : ∀ c ∈ s1.rest, c.toNat < 128 := by
        obtain ⟨u, hu⟩ := f1.1
        intro c hc
        exact h7 c (by rw [hu]; simp [hc])
      rcases ih s1 i1 h71 with ⟨h2, o, q, hm⟩ | ⟨s2, h2, f2, i2⟩
      · exact Or.inl ⟨by simp [runOps, h, h2], o, q, by simp [hm]⟩
      · exact Or.inr ⟨s2, by simp [runOps, h, h2], f1.trans f2, i2⟩

theorem scanQuote_lone {q : Byte} (k : Nat) : ∀ cs : Str, cs.length ≤ k →
    scanQuote q cs = .lone → cs.getLast? = some 92 := by
  induction k with
  | zero =>
    intro cs h
    have : cs = [] := List.eq_nil_of_length_eq_zero (by omega)
    subst this
    simp [scanQuote]
  | succ k ih =>
    intro cs h h1
    match cs, h, h1 with
    | [], _, h1 => simp [scanQuote] at h1
    | [c], _, h1 =>
      simp only [scanQuote] at h1
      split at h1 <;> try simp at h1
      simp [h1]
    | c :: d :: cs, h, h1 =>
      simp only [scanQuote] at h1
      split at h1
      · simp at h1
      · split at h1
        · have := ih cs (by simp at h; omega) h1
          cases cs with
          | nil => simp at this
          | cons e es => simpa [List.getLast?_cons_cons] using this
        · have := ih (d :: cs) (by simpa using h) h1
          simpa [List.getLast?_cons_cons] using this

theorem scanQuote_closed {q : Byte} (k : Nat) : ∀ cs rest : Str, cs.length ≤ k →
    scanQuote q cs = .closed rest → ∃ u, cs = u ++ rest := by
  induction k with
  | zero =>
    intro cs rest h
    have : cs = [] := List.eq_nil_of_length_eq_zero (by omega)
    subst this
    simp [scanQuote]
  | succ k ih =>
    intro cs rest h h1
    match cs, h, h1 with
    | [], _, h1 => simp [scanQuote] at h1
    | [c], _, h1 =>
      simp only [scanQuote] at h1
      split at h1
      · simp at h1; subst h1; exact ⟨[c], by simp⟩
      · split at h1 <;> simp at h1
    | c :: d :: cs, h, h1 =>
      simp only [scanQuote] at h1
      split at h1
      · simp at h1; subst h1; exact ⟨[c], by simp⟩
      · split at h1
        · obtain ⟨u, hu⟩ := ih cs rest (by simp at h; omega) h1
          exact ⟨c :: d :: u, by simp [hu]⟩
        · obtain ⟨u, hu⟩ := ih (d :: cs) rest (by simpa using h) h1
          exact ⟨c :: u, by simp [hu]⟩

theorem loneBackslash_getLast {d o q cs : Str} (h : LoneBackslash d o q cs) :
    cs.getLast? = some 92 := by
  induction h with
  | here _ _ hc hs =>
    have := scanQuote_lone _ _ (Nat.le_refl _) hs
    rw [List.getLast?_cons, this]; rfl
  | @later c cs rest _ _ hc hs _ ih =>
    obtain ⟨u, rfl⟩ := scanQuote_closed _ _ _ (Nat.le_refl _) hs
    rw [List.getLast?_cons, List.getLast?_append, ih]; rfl
  | skip _ _ _ _ _ ih => rw [List.getLast?_cons, ih]; rfl

end Flut
