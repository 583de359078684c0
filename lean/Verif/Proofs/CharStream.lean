import Verif.Model.CharStream
import Verif.Proofs.Quote
import Verif.Spec.CharStream

/-! # Lemmas about `char_stream` -/

namespace Flut

open Spec

/-! ## `decode_char` -/

theorem octLoop_len (n : Nat) : ∀ (l : Str) (v len : Nat),
    ∃ k, (octLoop n l v len).2 = len + k ∧ k ≤ n ∧ k ≤ l.length ∧
      ∀ d ∈ l.take k, 48 ≤ d.toNat ∧ d.toNat < 56 := by
  induction n with
  | zero => intro l v len; exact ⟨0, by simp [octLoop]⟩
  | succ n ih =>
    intro l v len
    cases l with
    | nil => exact ⟨0, by simp [octLoop]⟩
    | cons d ds =>
      by_cases hd : 48 ≤ d.toNat ∧ d.toNat < 56
      · obtain ⟨k, h1, h2, h3, h4⟩ := ih ds (v * 8 + d.toNat - 48) (len + 1)
        refine ⟨k + 1, by simp only [octLoop, hd, and_self, if_true, h1]; omega, by omega, by simp; omega, ?_⟩
        intro e he
        rcases List.mem_cons.1 (by simpa using he) with rfl | he
        · exact hd
        · exact h4 e he
      · exact ⟨0, by simp [octLoop, hd]⟩

/-- An escape sequence is consumed whole: either backslash plus an escaped backslash or quote, or backslash
plus `k` bytes that are neither. -/
theorem decodeChar_backslash {d : Byte} {cs : Str} : ∃ ch len, decodeChar (92 :: d :: cs) = .ok (ch, len) ∧
    1 ≤ len ∧ len ≤ cs.length + 2 ∧
    ((d = 92 ∨ d = 34) → len = 2) ∧
    (¬ (d = 92 ∨ d = 34) → ∀ e ∈ (d :: cs).take (len - 1), e = 0 ∨ e = 114 ∨ e = 110 ∨ e = 116 ∨
      (48 ≤ e.toNat ∧ e.toNat < 56)) := by
  by_cases h0 : d = 0
  · subst h0; exact ⟨63, 2, by simp [decodeChar], by simp⟩
  by_cases h1 : d = 92
  · subst h1; exact ⟨92, 2, by simp [decodeChar], by simp⟩
  by_cases h2 : d = 34
  · subst h2; exact ⟨34, 2, by simp [decodeChar], by simp⟩
  by_cases h3 : d = 114
  · subst h3; exact ⟨13, 2, by simp [decodeChar], by simp⟩
  by_cases h4 : d = 110
  · subst h4; exact ⟨10, 2, by simp [decodeChar], by simp⟩
  by_cases h5 : d = 116
  · subst h5; exact ⟨9, 2, by simp [decodeChar], by simp⟩
  · obtain ⟨k, e1, e2, e3, e4⟩ := octLoop_len (min (d :: cs).length 3) (d :: cs) 0 1
    have hd : decodeChar (92 :: d :: cs) =
        if 1 < (octLoop (min (d :: cs).length 3) (d :: cs) 0 1).2 ∧
            0 < (octLoop (min (d :: cs).length 3) (d :: cs) 0 1).1 ∧
            (octLoop (min (d :: cs).length 3) (d :: cs) 0 1).1 < 32
        then .ok (UInt8.ofNat (octLoop (min (d :: cs).length 3) (d :: cs) 0 1).1,
          (octLoop (min (d :: cs).length 3) (d :: cs) 0 1).2)
        else .ok (63, (octLoop (min (d :: cs).length 3) (d :: cs) 0 1).2) := by
      simp only [decodeChar, h0, h1, h2, h3, h4, h5, if_false, ne_eq, not_true_eq_false]
    rw [hd, e1]
    have hb : 1 ≤ 1 + k ∧ 1 + k ≤ cs.length + 2 ∧ ((d = 92 ∨ d = 34) → 1 + k = 2) ∧
        (¬ (d = 92 ∨ d = 34) → ∀ e ∈ (d :: cs).take (1 + k - 1), e = 0 ∨ e = 114 ∨ e = 110 ∨ e = 116 ∨
          (48 ≤ e.toNat ∧ e.toNat < 56)) := by
      refine ⟨by omega, by simp at e3; omega, fun h => by simp [h1, h2] at h, fun _ e he => ?_⟩
      have : 1 + k - 1 = k := by omega
      rw [this] at he
      exact Or.inr (Or.inr (Or.inr (Or.inr (e4 e he))))
    split
    · exact ⟨_, _, rfl, hb⟩
    · exact ⟨_, _, rfl, hb⟩

namespace CharStream

/-! ## The loop over a quoted part -/

theorem quoteLoop_char {q : Byte} {n : Nat} {s cs : Str} {c : Byte} (h1 : c ≠ q) (h2 : c ≠ 92) :
    quoteLoop q (n + 1) s (c :: cs) = quoteLoop q n (s ++ [c]) cs := by
  simp [quoteLoop, h1, h2]

theorem quoteLoop_close {q : Byte} {n : Nat} {s cs : Str} :
    quoteLoop q (n + 1) s (q :: cs) = .ok (s, cs) := by
  simp [quoteLoop]

theorem quoteLoop_esc {q : Byte} {n : Nat} {s cs : Str} {ch : Byte} {len : Nat} (hq : q ≠ 92)
    (hd : decodeChar (92 :: cs) = .ok (ch, len)) (hl : len ≤ cs.length + 1) :
    quoteLoop q (n + 1) s (92 :: cs) = quoteLoop q n (s ++ [ch]) ((92 :: cs).drop len) := by
  have h1 : ¬ (92 : Byte) = q := fun h => hq h.symm
  have h2 : ¬ (cs.length + 1 < len) := by omega
  simp [quoteLoop, h1, hd, h2]

theorem quoteLoop_lone {q : Byte} (hq : q ≠ 92) (n : Nat) : ∀ s, quoteLoop q n s [92] = .diverges := by
  induction n with
  | zero => intro s; rfl
  | succ n ih =>
    intro s
    rw [quoteLoop_esc (ch := 92) (len := 0) hq (by simp [decodeChar]) (by simp)]
    exact ih _

/-- A result does not depend on the iteration bound once that exceeds the number of bytes. -/
theorem quoteLoop_enough (q : Byte) (n : Nat) : ∀ (s rest : Str) (r : Str × Str),
    quoteLoop q n s rest = .ok r → (∀ m, rest.length < m → quoteLoop q m s rest = .ok r) ∧
      ∃ u, rest = u ++ r.2 := by
  induction n with
  | zero => intro s rest r h; simp [quoteLoop] at h
  | succ n ih =>
    intro s rest r h
    cases rest with
    | nil =>
      simp [quoteLoop] at h
      subst h
      exact ⟨fun m hm => by cases m <;> simp_all [quoteLoop], [], by simp⟩
    | cons c cs =>
      by_cases h1 : c = q
      · subst h1
        rw [quoteLoop_close] at h
        simp at h
        subst h
        exact ⟨fun m hm => by cases m <;> simp_all [quoteLoop], [c], by simp⟩
      by_cases h2 : c = 92
      · subst h2
        have hq : q ≠ 92 := fun h => h1 h.symm
        cases cs with
        | nil => rw [quoteLoop_lone hq] at h; simp at h
        | cons d ds =>
          obtain ⟨ch, len, hd, hl1, hl2, -⟩ := @decodeChar_backslash d ds
          rw [quoteLoop_esc hq hd (by simpa using hl2)] at h
          obtain ⟨g1, u, hu⟩ := ih _ _ _ h
          refine ⟨fun m hm => ?_, (92 :: d :: ds).take len ++ u, ?_⟩
          · cases m with
            | zero => simp at hm
            | succ m =>
              rw [quoteLoop_esc hq hd (by simpa using hl2)]
              apply g1
              simp at hm ⊢; omega
          · rw [List.append_assoc, ← hu, List.take_append_drop]
      · rw [quoteLoop_char h1 h2] at h
        obtain ⟨g1, u, hu⟩ := ih _ _ _ h
        refine ⟨fun m hm => ?_, c :: u, by simp [hu]⟩
        cases m with
        | zero => simp at hm
        | succ m =>
          rw [quoteLoop_char h1 h2]
          apply g1
          simp at hm; omega

theorem quoteLoop_not_ub (q : Byte) (n : Nat) : ∀ (s rest : Str),
    quoteLoop q n s rest ≠ .ub := by
  induction n with
  | zero => intro s rest h; simp [quoteLoop] at h
  | succ n ih =>
    intro s rest h
    cases rest with
    | nil => simp [quoteLoop] at h
    | cons c cs =>
      by_cases h1 : c = q
      · subst h1; rw [quoteLoop_close] at h; simp at h
      by_cases h2 : c = 92
      · subst h2
        have hq : q ≠ 92 := fun h => h1 h.symm
        cases cs with
        | nil => rw [quoteLoop_lone hq] at h; simp at h
        | cons d ds =>
          obtain ⟨ch, len, hd, hl1, hl2, -⟩ := @decodeChar_backslash d ds
          rw [quoteLoop_esc hq hd (by simpa using hl2)] at h
          exact ih _ _ h
      · rw [quoteLoop_char h1 h2] at h; exact ih _ _ h

theorem quoteLoop_not_throws (q : Byte) (n : Nat) : ∀ (s rest : Str) (e : Exn),
    quoteLoop q n s rest ≠ .throws e := by
  induction n with
  | zero => intro s rest e h; simp [quoteLoop] at h
  | succ n ih =>
    intro s rest e h
    cases rest with
    | nil => simp [quoteLoop] at h
    | cons c cs =>
      by_cases h1 : c = q
      · subst h1; rw [quoteLoop_close] at h; simp at h
      by_cases h2 : c = 92
      · subst h2
        have hq : q ≠ 92 := fun h => h1 h.symm
        cases cs with
        | nil => rw [quoteLoop_lone hq] at h; simp at h
        | cons d ds =>
          obtain ⟨ch, len, hd, hl1, hl2, -⟩ := @decodeChar_backslash d ds
          rw [quoteLoop_esc hq hd (by simpa using hl2)] at h
          exact ih _ _ _ h
      · rw [quoteLoop_char h1 h2] at h; exact ih _ _ _ h

/-- `scan_quote` of the specification ignores plain bytes. -/
theorem scanQuote_plain {q c : Byte} {cs : Str} (h1 : c ≠ q) (h2 : c ≠ 92) :
    scanQuote q (c :: cs) = scanQuote q cs := by
  cases cs with
  | nil => simp [scanQuote, h1, h2]
  | cons d ds => simp [scanQuote, h1, h2]

theorem scanQuote_plains {q : Byte} {u cs : Str} (h : ∀ c ∈ u, c ≠ q ∧ c ≠ 92) :
    scanQuote q (u ++ cs) = scanQuote q cs := by
  induction u with
  | nil => rfl
  | cons c u ih =>
    have := h c (by simp)
    rw [List.cons_append, scanQuote_plain this.1 this.2, ih (fun d hd => h d (by simp [hd]))]

/-- Skipping an escape sequence does not change the outcome of `scan_quote`. -/
theorem scanQuote_esc {q d : Byte} {ds : Str} {ch : Byte} {len : Nat} (hq : q = 34 ∨ q = 39)
    (hd : decodeChar (92 :: d :: ds) = .ok (ch, len)) :
    scanQuote q (92 :: d :: ds) = scanQuote q ((92 :: d :: ds).drop len) := by
  have hq92 : ¬ (92 : Byte) = q := by rcases hq with rfl | rfl <;> decide
  obtain ⟨ch', len', hd', hl1, hl2, h3, h4⟩ := @decodeChar_backslash d ds
  rw [hd] at hd'
  simp at hd'
  obtain ⟨rfl, rfl⟩ := hd'
  by_cases hdd : d = 92 ∨ d = 34
  · rw [h3 hdd]
    simp [scanQuote, hq92, hdd]
  · have e1 : scanQuote q (92 :: d :: ds) = scanQuote q (d :: ds) := by
      simp [scanQuote, hq92, hdd]
    obtain ⟨k, rfl⟩ : ∃ k, len = k + 1 := ⟨len - 1, by omega⟩
    have h5 := h4 hdd
    simp only [Nat.add_sub_cancel] at h5
    rw [e1, List.drop_succ_cons]
    conv => lhs; rw [← List.take_append_drop k (d :: ds)]
    apply scanQuote_plains
    intro c hc
    have := h5 c hc
    constructor
    · rintro rfl
      rcases hq with rfl | rfl <;> simp at this
    · rintro rfl
      simp at this

/-- The quoted-part loop agrees with the specification. -/
theorem quoteLoop_scan {q : Byte} (hq : q = 34 ∨ q = 39) (k : Nat) : ∀ (s rest : Str), rest.length ≤ k →
    match scanQuote q rest with
    | .closed rest' => ∃ s', quoteLoop q (k + 1) s rest = .ok (s', rest') ∧ rest'.length < rest.length
    | .unclosed => ∃ s', quoteLoop q (k + 1) s rest = .ok (s', [])
    | .lone => ∀ n, quoteLoop q n s rest = .diverges := by
  have hq92 : q ≠ 92 := by rcases hq with rfl | rfl <;> decide
  induction k with
  | zero =>
    intro s rest h
    have : rest = [] := List.eq_nil_of_length_eq_zero (by omega)
    subst this
    exact ⟨s, by simp [quoteLoop]⟩
  | succ k ih =>
    intro s rest h
    cases rest with
    | nil => exact ⟨s, by simp [quoteLoop]⟩
    | cons c cs =>
      simp at h
      by_cases h1 : c = q
      · subst h1
        have : scanQuote c (c :: cs) = .closed cs := by cases cs <;> simp [scanQuote]
        rw [this]
        exact ⟨s, quoteLoop_close, by simp⟩
      by_cases h2 : c = 92
      · subst h2
        cases cs with
        | nil =>
          have : scanQuote q [92] = .lone := by simp [scanQuote, h1]
          rw [this]
          intro n; exact quoteLoop_lone hq92 n s
        | cons d ds =>
          obtain ⟨ch, len, hd, hl1, hl2, -⟩ := @decodeChar_backslash d ds
          rw [scanQuote_esc hq hd]
          have hlen : ((92 :: d :: ds).drop len).length ≤ k := by simp at h ⊢; omega
          have := ih (s ++ [ch]) _ hlen
          have e : ∀ n, quoteLoop q (n + 1) s (92 :: d :: ds) =
              quoteLoop q n (s ++ [ch]) ((92 :: d :: ds).drop len) :=
            fun n => quoteLoop_esc hq92 hd (by simpa using hl2)
          split at this
          · obtain ⟨s', g1, g2⟩ := this
            refine ⟨s', by rw [e]; exact g1, ?_⟩
            simp at g2 ⊢; omega
          · obtain ⟨s', g1⟩ := this
            exact ⟨s', by rw [e]; exact g1⟩
          · intro n
            cases n with
            | zero => rfl
            | succ n => rw [e]; exact this n
      · rw [scanQuote_plain h1 h2]
        have := ih (s ++ [c]) cs (by omega)
        split at this
        · obtain ⟨s', g1, g2⟩ := this
          exact ⟨s', by rw [quoteLoop_char h1 h2]; exact g1, by simp; omega⟩
        · obtain ⟨s', g1⟩ := this
          exact ⟨s', by rw [quoteLoop_char h1 h2]; exact g1⟩
        · intro n
          cases n with
          | zero => rfl
          | succ n => rw [quoteLoop_char h1 h2]; exact this n

/-! ## The token loop -/

theorem strchr_iff {set : Str} {c : Byte} : strchr set c = true ↔ c = 0 ∨ c ∈ set := by
  simp [strchr]

theorem strchr_false {set : Str} {c : Byte} : strchr set c = false ↔ c ≠ 0 ∧ c ∉ set := by
  simp [strchr]

theorem tokenLoop_plain {d o q : Str} {n : Nat} {s pend cs : Str} {c : Byte} (h1 : strchr d c = false)
    (h2 : strchr q c = false) (h3 : strchr o c = false) :
    tokenLoop d o q (n + 1) s pend (c :: cs) = tokenLoop d o q n s (pend ++ [c]) cs := by
  simp [tokenLoop, h1, h2, h3]

theorem tokenLoop_delim {d o q : Str} {n : Nat} {s pend cs : Str} {c : Byte} (h1 : strchr d c = true) :
    tokenLoop d o q (n + 1) s pend (c :: cs) = .ok (s ++ pend, c :: cs) := by
  simp [tokenLoop, h1]

theorem tokenLoop_op {d o q : Str} {n : Nat} {s pend cs : Str} {c : Byte} (h1 : strchr d c = false)
    (h2 : strchr q c = false) (h3 : strchr o c = true) :
    tokenLoop d o q (n + 1) s pend (c :: cs) =
      if pend.isEmpty && s.isEmpty then .ok ([c], cs) else .ok (s ++ pend, c :: cs) := by
  simp [tokenLoop, h1, h2, h3]

theorem tokenLoop_quote {d o q : Str} {n : Nat} {s pend cs : Str} {c : Byte} (h1 : strchr d c = false)
    (h2 : strchr q c = true) :
    tokenLoop d o q (n + 1) s pend (c :: cs) = (do
      let x ← quoteLoop c n s cs
      if x.2.isEmpty then .ok (x.1, []) else tokenLoop d o q n x.1 [] x.2) := by
  simp [tokenLoop, h1, h2]

/-- With double and single quotes, the token loop returns exactly when no quoted part ends in a lone
backslash, and then any bound above the number of bytes gives the same result. -/
theorem tokenLoop_spec {d o q : Str} (hq : ∀ c ∈ q, c = 34 ∨ c = 39) (k : Nat) :
    ∀ (s pend rest : Str), rest.length ≤ k →
    (LoneBackslash d o q rest ∧ ∀ n, tokenLoop d o q n s pend rest = .diverges) ∨
    (¬ LoneBackslash d o q rest ∧ ∃ t rest', (∃ u, rest = u ++ rest') ∧
      ∀ n, rest.length < n → tokenLoop d o q n s pend rest = .ok (t, rest')) := by
  induction k with
  | zero =>
    intro s pend rest h
    have : rest = [] := List.eq_nil_of_length_eq_zero (by omega)
    subst this
    refine Or.inr ⟨(by intro h; cases h), s ++ pend, [], ⟨[], rfl⟩, ?_⟩
    intro n hn
    cases n with
    | zero => simp at hn
    | succ n => simp [tokenLoop]
  | succ k ih =>
    intro s pend rest h
    cases rest with
    | nil =>
      refine Or.inr ⟨(by intro h; cases h), s ++ pend, [], ⟨[], rfl⟩, ?_⟩
      intro n hn
      cases n with
      | zero => simp at hn
      | succ n => simp [tokenLoop]
    | cons c cs =>
      simp at h
      cases h1 : strchr d c with
      | true =>
        refine Or.inr ⟨?_, s ++ pend, c :: cs, ⟨[], rfl⟩, ?_⟩
        · have := strchr_iff.1 h1
          intro hl
          cases hl <;> (rcases this with h | h <;> contradiction)
        · intro n hn
          cases n with
          | zero => simp at hn
          | succ n => exact tokenLoop_delim h1
      | false =>
        have h1' := strchr_false.1 h1
        cases h2 : strchr q c with
        | true =>
          have hcq : c ∈ q := by
            rcases strchr_iff.1 h2 with h | h
            · exact absurd h h1'.1
            · exact h
          have hc := hq c hcq
          have hc92 : c ≠ 92 := by rcases hc with rfl | rfl <;> decide
          have hs := quoteLoop_scan hc cs.length s cs (Nat.le_refl _)
          cases hsc : scanQuote c cs with
          | lone =>
            rw [hsc] at hs
            refine Or.inl ⟨.here h1'.1 h1'.2 hcq hsc, ?_⟩
            intro n
            cases n with
            | zero => rfl
            | succ n => rw [tokenLoop_quote h1 h2, hs n]; rfl
          | unclosed =>
            rw [hsc] at hs
            obtain ⟨s', g⟩ := hs
            have g' := (quoteLoop_enough c _ _ _ _ g).1
            refine Or.inr ⟨?_, s', [], ⟨c :: cs, by simp⟩, ?_⟩
            · intro hl
              cases hl with
              | here _ _ _ h => rw [hsc] at h; cases h
              | later _ _ _ h => rw [hsc] at h; cases h
              | skip _ _ h => exact h hcq
            · intro n hn
              cases n with
              | zero => simp at hn
              | succ n =>
                rw [tokenLoop_quote h1 h2, g' n (by simpa using hn)]
                simp
          | closed rest' =>
            rw [hsc] at hs
            obtain ⟨s', g, hlt⟩ := hs
            obtain ⟨g', u, hu⟩ := quoteLoop_enough c _ _ _ _ g
            simp only at hu
            rcases ih s' [] rest' (by omega) with ⟨a1, a2⟩ | ⟨a1, t, r2, ⟨v, hv⟩, a2⟩
            · refine Or.inl ⟨.later h1'.1 h1'.2 hcq hsc a1, ?_⟩
              intro n
              cases n with
              | zero => rfl
              | succ n =>
                rw [tokenLoop_quote h1 h2]
                cases hqn : quoteLoop c n s cs with
                | ok x =>
                  have := (quoteLoop_enough c _ _ _ _ hqn).1 (cs.length + 1) (by omega)
                  rw [g] at this
                  simp at this
                  subst this
                  have hne : rest' ≠ [] := by rintro rfl; cases a1
                  simp [hne, a2]
                | diverges => rfl
                | ub =>
                  exfalso
                  exact quoteLoop_not_ub c n s cs hqn
                | throws e =>
                  exfalso
                  exact quoteLoop_not_throws c n s cs e hqn
            · refine Or.inr ⟨?_, t, r2, ⟨c :: u ++ v, by simp [hu, ← hv]⟩, ?_⟩
              · intro hl
                cases hl with
                | here _ _ _ h => rw [hsc] at h; cases h
                | later _ _ _ h hl2 =>
                  rw [hsc] at h
                  simp at h
                  subst h
                  exact a1 hl2
                | skip _ _ h => exact h hcq
              · intro n hn
                cases n with
                | zero => simp at hn
                | succ n =>
                  rw [tokenLoop_quote h1 h2, g' n (by simpa using hn)]
                  simp at hn
                  have a3 := a2 n (by omega)
                  cases rest' with
                  | nil =>
                    have := a2 (n + 1) (by simp)
                    simp [tokenLoop] at this
                    simp [this]
                  | cons x xs => simpa using a3
        | false =>
          have h2' := strchr_false.1 h2
          cases h3 : strchr o c with
          | true =>
            refine Or.inr ⟨?_, ?_⟩
            · intro hl
              cases hl with
              | here _ _ h => exact h2'.2 h
              | later _ _ h => exact h2'.2 h
              | skip _ _ _ h =>
                rcases strchr_iff.1 h3 with h' | h'
                · exact h1'.1 h'
                · exact h h'
            · by_cases hp : (pend.isEmpty && s.isEmpty) = true
              · refine ⟨[c], cs, ⟨[c], rfl⟩, ?_⟩
                intro n hn
                cases n with
                | zero => simp at hn
                | succ n => rw [tokenLoop_op h1 h2 h3, if_pos hp]
              · refine ⟨s ++ pend, c :: cs, ⟨[], rfl⟩, ?_⟩
                intro n hn
                cases n with
                | zero => simp at hn
                | succ n => rw [tokenLoop_op h1 h2 h3, if_neg hp]
          | false =>
            have h3' := strchr_false.1 h3
            rcases ih s (pend ++ [c]) cs (by omega) with ⟨a1, a2⟩ | ⟨a1, t, r2, ⟨v, hv⟩, a2⟩
            · refine Or.inl ⟨.skip h1'.1 h1'.2 h2'.2 h3'.2 a1, ?_⟩
              intro n
              cases n with
              | zero => rfl
              | succ n => rw [tokenLoop_plain h1 h2 h3]; exact a2 n
            · refine Or.inr ⟨?_, t, r2, ⟨c :: v, by simp [← hv]⟩, ?_⟩
              · intro hl
                cases hl with
                | here _ _ h => exact h2'.2 h
                | later _ _ h => exact h2'.2 h
                | skip _ _ _ _ h => exact a1 h
              · intro n hn
                cases n with
                | zero => simp at hn
                | succ n => rw [tokenLoop_plain h1 h2 h3]; exact a2 n (by simpa using hn)

/-- A result of the token loop does not depend on the iteration bound once that exceeds the number of
bytes, and what is left is a suffix. -/
theorem tokenLoop_enough (d o q : Str) (n : Nat) : ∀ (s pend rest : Str) (r : Str × Str),
    tokenLoop d o q n s pend rest = .ok r →
      (∀ m, rest.length < m → tokenLoop d o q m s pend rest = .ok r) ∧ ∃ u, rest = u ++ r.2 := by
  induction n with
  | zero => intro s pend rest r h; simp [tokenLoop] at h
  | succ n ih =>
    intro s pend rest r h
    cases rest with
    | nil =>
      simp [tokenLoop] at h
      subst h
      exact ⟨fun m hm => by cases m <;> simp_all [tokenLoop], [], by simp⟩
    | cons c cs =>
      cases h1 : strchr d c with
      | true =>
        rw [tokenLoop_delim h1] at h
        simp at h
        subst h
        exact ⟨fun m hm => by
          cases m with
          | zero => simp at hm
          | succ m => exact tokenLoop_delim h1, [], rfl⟩
      | false =>
        cases h2 : strchr q c with
        | true =>
          rw [tokenLoop_quote h1 h2] at h
          obtain ⟨x, hx, h⟩ := Res.bind_eq_ok.1 h
          obtain ⟨g1, u, hu⟩ := quoteLoop_enough c _ _ _ _ hx
          cases hx2 : x.2 with
          | nil =>
            simp [hx2] at h
            subst h
            refine ⟨fun m hm => ?_, c :: cs, by simp⟩
            cases m with
            | zero => simp at hm
            | succ m =>
              rw [tokenLoop_quote h1 h2, g1 m (by simpa using hm)]
              simp [hx2]
          | cons y ys =>
            simp [hx2] at h
            obtain ⟨g2, v, hv⟩ := ih _ _ _ _ h
            refine ⟨fun m hm => ?_, c :: u ++ v, ?_⟩
            · cases m with
              | zero => simp at hm
              | succ m =>
                rw [tokenLoop_quote h1 h2, g1 m (by simpa using hm)]
                simp only [Res.bind_ok, hx2, List.isEmpty_cons, Bool.false_eq_true, if_false]
                apply g2
                have := congrArg List.length hu
                simp [hx2] at this hm ⊢
                omega
            · rw [List.append_assoc, ← hv, ← hx2, List.cons_append, ← hu]
        | false =>
          cases h3 : strchr o c with
          | true =>
            rw [tokenLoop_op h1 h2 h3] at h
            refine ⟨fun m hm => ?_, ?_⟩
            · cases m with
              | zero => simp at hm
              | succ m => rw [tokenLoop_op h1 h2 h3]; exact h
            · split at h <;> simp at h <;> subst h
              · exact ⟨[c], rfl⟩
              · exact ⟨[], rfl⟩
          | false =>
            rw [tokenLoop_plain h1 h2 h3] at h
            obtain ⟨g1, u, hu⟩ := ih _ _ _ _ h
            refine ⟨fun m hm => ?_, c :: u, by simp [hu]⟩
            cases m with
            | zero => simp at hm
            | succ m => rw [tokenLoop_plain h1 h2 h3]; exact g1 m (by simpa using hm)

theorem tokenLoop_ok_or_diverges (d o q : Str) (n : Nat) : ∀ (s pend rest : Str),
    tokenLoop d o q n s pend rest = .diverges ∨ ∃ r, tokenLoop d o q n s pend rest = .ok r := by
  induction n with
  | zero => intro s pend rest; exact Or.inl rfl
  | succ n ih =>
    intro s pend rest
    cases rest with
    | nil => exact Or.inr ⟨_, rfl⟩
    | cons c cs =>
      cases h1 : strchr d c with
      | true => exact Or.inr ⟨_, tokenLoop_delim h1⟩
      | false =>
        cases h2 : strchr q c with
        | true =>
          rw [tokenLoop_quote h1 h2]
          cases hx : quoteLoop c n s cs with
          | ok x =>
            simp only [Res.bind_ok]
            split
            · exact Or.inr ⟨_, rfl⟩
            · exact ih _ _ _
          | diverges => exact Or.inl rfl
          | ub => exact absurd hx (quoteLoop_not_ub _ _ _ _)
          | throws e => exact absurd hx (quoteLoop_not_throws _ _ _ _ _)
        | false =>
          cases h3 : strchr o c with
          | true => rw [tokenLoop_op h1 h2 h3]; split <;> exact Or.inr ⟨_, rfl⟩
          | false => rw [tokenLoop_plain h1 h2 h3]; exact ih _ _ _

theorem getToken_of {s : CharStream} {o q t r : Str} {n : Nat} (hg : s.good = true)
    (h : tokenLoop s.delims o q n [] [] s.rest = .ok (t, r)) :
    s.getToken o q = .ok (t, { s with rest := r }.skipDelims) := by
  have := (tokenLoop_enough _ _ _ _ _ _ _ _ h).1 (s.rest.length + 2) (by omega)
  simp [getToken, getTokenN, hg, this]

/-- The token loop collects a run of plain bytes. -/
theorem tokenLoop_plains {d o q w : Str} (h : ∀ c ∈ w, strchr d c = false ∧ strchr q c = false ∧ strchr o c = false)
    (n : Nat) (s pend rest : Str) :
    tokenLoop d o q (n + w.length) s pend (w ++ rest) = tokenLoop d o q n s (pend ++ w) rest := by
  induction w generalizing pend with
  | nil => simp
  | cons c w ih =>
    obtain ⟨h1, h2, h3⟩ := h c (by simp)
    have e : n + (c :: w).length = (n + w.length) + 1 := by simp; omega
    rw [e, List.cons_append, tokenLoop_plain h1 h2 h3, ih (fun d hd => h d (by simp [hd]))]
    simp

/-- The quoted-part loop over the encoding of one character. -/
theorem quoteLoop_quoteChar {c : Byte} (n : Nat) (acc rest : Str) (hc : 1 ≤ c.toNat ∧ c.toNat ≤ 127) :
    quoteLoop 34 (n + 1) acc (quoteChar c ++ rest) = quoteLoop 34 n (acc ++ [c]) rest := by
  cases quoteCase c with
  | plain hq h1 h2 _ _ => rw [hq]; exact quoteLoop_char h1 h2
  | esc d hq _ _ h =>
    rw [hq]
    have := quoteLoop_esc (q := 34) (n := n) (s := acc) (cs := d :: rest) (by decide)
      (decodeChar_esc rest h) (by simp)
    simpa using this
  | oct d1 d2 d3 hq h1 h2 h3 hv hlt =>
    rw [hq]
    have hd := decodeChar_oct rest h1 h2 h3
    simp only [hv] at hd
    rw [if_pos (by omega)] at hd
    have := quoteLoop_esc (q := 34) (n := n) (s := acc) (cs := d1 :: d2 :: d3 :: rest) (by decide)
      hd (by simp)
    simpa using this
  | neg tl _ h => omega

theorem quoteLoop_quoted {s : Str} (hs : Ascii s) (n : Nat) (acc rest : Str) :
    quoteLoop 34 (n + s.length + 1) acc (s.flatMap quoteChar ++ 34 :: rest) = .ok (acc ++ s, rest) := by
  induction s generalizing acc with
  | nil => simpa using quoteLoop_close
  | cons c cs ih =>
    have e : n + (c :: cs).length + 1 = (n + cs.length + 1) + 1 := by simp; omega
    rw [List.flatMap_cons, List.append_assoc, e, quoteLoop_quoteChar _ _ _ (hs c (by simp)),
      ih (fun d hd => hs d (by simp [hd]))]
    simp

/-- The token loop at a quoted text: whatever was pending is dropped. -/
theorem tokenLoop_quoted {d o q s : Str} (hs : Ascii s) (h1 : (34 : Byte) ∉ d) (h2 : (34 : Byte) ∈ q)
    (n : Nat) (acc pend rest : Str) :
    tokenLoop d o q (n + s.length + 2) acc pend (quoted s ++ rest) =
      if rest = [] then .ok (acc ++ s, []) else tokenLoop d o q (n + s.length + 1) (acc ++ s) [] rest := by
  have e1 : strchr d 34 = false := strchr_false.2 ⟨by decide, h1⟩
  have e2 : strchr q 34 = true := strchr_iff.2 (Or.inr h2)
  have e : quoted s ++ rest = 34 :: (s.flatMap quoteChar ++ 34 :: rest) := by simp [quoted]
  rw [e, tokenLoop_quote e1 e2, quoteLoop_quoted hs n acc rest]
  by_cases hr : rest = []
  · simp [hr]
  · simp [hr]

end CharStream

end Flut
