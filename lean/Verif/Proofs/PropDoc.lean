import Verif.Proofs.PropRoundTrip
import Verif.Spec.PropDoc

/-! # Reading hand-written prop documents -/

namespace Flut

open Spec CharStream

/-! ### Trimming -/

theorem dropWhile_split (p : Byte → Bool) (s : Str) : ∃ a r, s = a ++ r ∧ s.dropWhile p = r ∧ (∀ c ∈ a, p c = true) ∧
    ∀ c ∈ r.head?, p c = false := by
  refine ⟨s.takeWhile p, s.dropWhile p, (List.takeWhile_append_dropWhile).symm, rfl, ?_, ?_⟩
  · intro c hc
    exact (List.all_eq_true.1 (List.all_takeWhile (p := p) (l := s))) c hc
  · intro c hc
    have := List.head?_dropWhile_not p s
    rw [Option.mem_def] at hc
    rw [hc] at this
    simpa using this

theorem strip_isTrim (s : Str) : IsTrim IsSpace s (strip s) := by
  obtain ⟨a, r, h1, h2, h3, h4⟩ := dropWhile_split (fun c => decide (IsSpace c)) s
  obtain ⟨b, t, k1, k2, k3, k4⟩ := dropWhile_split (fun c => decide (IsSpace c)) r.reverse
  have e : strip s = t.reverse := by simp only [strip, h2, k2]
  have er : r = t.reverse ++ b.reverse := by
    rw [← List.reverse_append, ← k1, List.reverse_reverse]
  rw [e]
  refine ⟨a, b.reverse, by rw [h1, er, List.append_assoc], fun c hc => by simpa using h3 c hc,
    fun c hc => by simpa using k3 c (by simpa using hc), ?_, ?_⟩
  · intro c hc
    have : c ∈ r.head? := by
      rw [er]
      cases ht : t.reverse with
      | nil => rw [ht] at hc; simp at hc
      | cons d ds => rw [ht] at hc; simpa using hc
    simpa using h4 c this
  · intro c hc
    rw [List.getLast?_reverse] at hc
    simpa using k4 c hc

theorem trimStr_strip (s : Str) : trimStr s = .ok (strip s) := by
  obtain ⟨a, b, h1, ha, hb, hh, hl⟩ := strip_isTrim s
  have := trim_trimmed a b ⟨hh, hl⟩ ha hb
  rwa [← h1] at this

theorem strip_append_blank {s b : Str} (hb : ∀ c ∈ b, IsSpace c) : strip (s ++ b) = strip s := by
  apply isTrim_unique (strip_isTrim (s ++ b))
  obtain ⟨x, y, h1, hx, hy, hh, hl⟩ := strip_isTrim s
  refine ⟨x, y ++ b, ?_, hx, ?_, hh, hl⟩
  · calc s ++ b = x ++ strip s ++ y ++ b := by rw [← h1]
      _ = _ := by simp
  · intro c hc
    rcases List.mem_append.1 hc with h | h
    · exact hy c h
    · exact hb c h

theorem strip_trimmed {a w b : Str} (ha : ∀ c ∈ a, IsSpace c) (hw : Trimmed w) (hb : ∀ c ∈ b, IsSpace c) :
    strip (a ++ w ++ b) = w :=
  isTrim_unique (strip_isTrim _) ⟨a, b, rfl, ha, hb, hw.1, hw.2⟩

/-! ### Characters -/

theorem blank_space {c : Byte} (h : IsBlank c) : IsSpace c := by
  rcases h with rfl | rfl <;> decide

theorem separator_iff {c : Byte} : IsSeparator c ↔ c ∈ propDelims := by
  simp [IsSeparator, propDelims]

theorem separator_delim {c : Byte} (h : IsSeparator c) : strchr propDelims c = true :=
  strchr_iff.2 (Or.inr (separator_iff.1 h))

theorem wordChar_plain {c : Byte} (h : IsWordChar c) :
    strchr propDelims c = false ∧ strchr propQuotes c = false ∧ strchr propOperators c = false := by
  obtain ⟨h0, h1, h2, h3, h4, h5, h6, h7⟩ := h
  refine ⟨strchr_false.2 ⟨h0, fun hc => h1 (separator_iff.2 hc)⟩, strchr_false.2 ⟨h0, ?_⟩, strchr_false.2 ⟨h0, ?_⟩⟩
  · simp [propQuotes, h6, h7]
  · simp [propOperators, h2, h3, h4, h5]

theorem blank_wordChar {c : Byte} (h : IsBlank c) : IsWordChar c := by
  rcases h with rfl | rfl <;> decide

/-! ### Words -/

/-- The token before trimming. -/
def Spec.Word.raw : Word → Str
  | .bare a w b => a ++ w ++ b
  | .quoted _ _ w b => w.map QuotedChar.char ++ b

/-- What may follow a word. -/
def Stops (w : Word) (R : Str) : Prop :=
  R = [] ∨ ∃ c R', R = c :: R' ∧ (strchr propDelims c = true ∨ (¬ w.Nothing ∧ (c = 61 ∨ c = 123 ∨ c = 125 ∨ c = 37)))

theorem raw_ne_nil {w : Word} (h : w.Valid) (hn : ¬ w.Nothing) : w.raw ≠ [] := by
  cases w with
  | bare a w b => exact h.2.2.2.2
  | quoted a q w b =>
    intro he
    simp only [Word.raw, List.append_eq_nil_iff, List.map_eq_nil_iff] at he
    exact hn he

theorem tokenLoop_stop {w : Word} (h : w.Valid) {R acc pend : Str} (hR : Stops w R) (e : acc ++ pend = w.raw) (n : Nat) :
    tokenLoop propDelims propOperators propQuotes (n + 1) acc pend R = .ok (w.raw, R) := by
  rcases hR with rfl | ⟨c, R', rfl, hc | ⟨hn, hc⟩⟩
  · simp [tokenLoop, e]
  · rw [tokenLoop_delim hc, e]
  · have : strchr propDelims c = false ∧ strchr propQuotes c = false ∧ strchr propOperators c = true := by
      rcases hc with rfl | rfl | rfl | rfl <;> decide
    rw [tokenLoop_op this.1 this.2.1 this.2.2, if_neg, e]
    have h2 := raw_ne_nil h hn
    rw [← e] at h2
    intro h3
    simp at h3
    exact h2 (by simp [h3])

theorem quoteLoop_body {q : Byte} (hq : q = 34 ∨ q = 39) {w : List QuotedChar}
    (hw : ∀ x ∈ w, ∀ c, x = .raw c → c ≠ 0 ∧ c ≠ q ∧ c ≠ 92) (n : Nat) (acc R : Str) :
    quoteLoop q (n + w.length + 1) acc (w.flatMap QuotedChar.text ++ q :: R) =
      .ok (acc ++ w.map QuotedChar.char, R) := by
  have hq92 : q ≠ 92 := by rcases hq with rfl | rfl <;> decide
  induction w generalizing acc with
  | nil => simpa using quoteLoop_close
  | cons x w ih =>
    have ih' := ih (fun y hy => hw y (by simp [hy])) (acc ++ [x.char])
    have e : n + (x :: w).length + 1 = (n + w.length + 1) + 1 := by simp; omega
    have step : quoteLoop q (n + w.length + 1 + 1) acc (x.text ++ (w.flatMap QuotedChar.text ++ q :: R)) =
        quoteLoop q (n + w.length + 1) (acc ++ [x.char]) (w.flatMap QuotedChar.text ++ q :: R) := by
      cases x with
      | raw c =>
        have := hw (.raw c) (by simp) c rfl
        exact quoteLoop_char this.2.1 this.2.2
      | backslash => exact quoteLoop_esc (ch := 92) (len := 2) hq92 rfl (by simp)
      | quote => exact quoteLoop_esc (ch := 34) (len := 2) hq92 rfl (by simp)
      | newline => exact quoteLoop_esc (ch := 10) (len := 2) hq92 rfl (by simp)
      | ret => exact quoteLoop_esc (ch := 13) (len := 2) hq92 rfl (by simp)
      | tab => exact quoteLoop_esc (ch := 9) (len := 2) hq92 rfl (by simp)
    rw [List.flatMap_cons, List.append_assoc, e, step, ih']
    simp

theorem tokenLoop_word {w : Word} (h : w.Valid) {R : Str} (hR : Stops w R) :
    ∃ N, tokenLoop propDelims propOperators propQuotes N [] [] (w.text ++ R) = .ok (w.raw, R) := by
  cases w with
  | bare a w b =>
    refine ⟨0 + 1 + (a ++ w ++ b).length, ?_⟩
    have hp : ∀ c ∈ a ++ w ++ b, strchr propDelims c = false ∧ strchr propQuotes c = false ∧
        strchr propOperators c = false := by
      intro c hc
      simp only [List.mem_append] at hc
      rcases hc with (hc | hc) | hc
      · exact wordChar_plain (blank_wordChar (h.1 c hc))
      · exact wordChar_plain (h.2.1 c hc)
      · exact wordChar_plain (blank_wordChar (h.2.2.2.1 c hc))
    rw [Word.text, tokenLoop_plains hp]
    exact tokenLoop_stop h hR (by simp [Word.raw]) 0
  | quoted a q w b =>
    obtain ⟨h1, h2, h3, h4, h5⟩ := h
    have hq : strchr propDelims q = false ∧ strchr propQuotes q = true := by rcases h2 with rfl | rfl <;> decide
    refine ⟨(b.length + w.length + 1) + 1 + a.length, ?_⟩
    have e : (Word.quoted a q w b).text ++ R = a ++ (q :: (w.flatMap QuotedChar.text ++ q :: (b ++ R))) := by
      simp [Word.text]
    rw [e, tokenLoop_plains (fun c hc => wordChar_plain (blank_wordChar (h1 c hc))), tokenLoop_quote hq.1 hq.2,
      quoteLoop_body h2 h3]
    simp only [Res.bind_ok, List.nil_append]
    by_cases hb : b ++ R = []
    · obtain ⟨rfl, rfl⟩ := List.append_eq_nil_iff.1 hb
      simp [Word.raw]
    · rw [if_neg (by simpa using hb)]
      have e2 : b.length + w.length + 1 = w.length + 1 + b.length := by omega
      rw [e2, tokenLoop_plains (fun c hc => wordChar_plain (blank_wordChar (h4 c hc)))]
      exact tokenLoop_stop (w := .quoted a q w b) ⟨h1, h2, h3, h4, h5⟩ hR (by simp [Word.raw]) _

/-- The first character of a word is not a separator. -/
theorem word_head {w : Word} (h : w.Valid) : ∃ c Y, w.text = c :: Y ∧ strchr propDelims c = false := by
  cases w with
  | bare a w b =>
    have hp : ∀ c ∈ a ++ w ++ b, strchr propDelims c = false := by
      intro c hc
      simp only [List.mem_append] at hc
      rcases hc with (hc | hc) | hc
      · exact (wordChar_plain (blank_wordChar (h.1 c hc))).1
      · exact (wordChar_plain (h.2.1 c hc)).1
      · exact (wordChar_plain (blank_wordChar (h.2.2.2.1 c hc))).1
    have hne := h.2.2.2.2
    cases e : a ++ w ++ b with
    | nil => exact absurd e hne
    | cons c Y => exact ⟨c, Y, by rw [Word.text, e], hp c (by rw [e]; simp)⟩
  | quoted a q w b =>
    cases a with
    | nil =>
      refine ⟨q, _, by simp [Word.text]; rfl, ?_⟩
      rcases h.2.1 with rfl | rfl <;> decide
    | cons c a =>
      exact ⟨c, _, by simp [Word.text]; rfl, (wordChar_plain (blank_wordChar (h.1 c (by simp)))).1⟩

theorem raw_ne_percent {w : Word} (h : w.Valid) : w.raw ≠ b!"%" := by
  cases w with
  | bare a w b =>
    intro e
    have : (37 : Byte) ∈ a ++ w ++ b := by
      simp only [Word.raw] at e
      rw [e]; simp
    simp only [List.mem_append] at this
    rcases this with (hc | hc) | hc
    · exact absurd (h.1 _ hc) (by decide)
    · exact absurd (h.2.1 _ hc) (by decide)
    · exact absurd (h.2.2.2.1 _ hc) (by decide)
  | quoted a q w b => exact h.2.2.2.2

theorem strip_raw {w : Word} (h : w.Valid) : strip w.raw = w.says := by
  cases w with
  | bare a w b => exact strip_trimmed (fun c hc => blank_space (h.1 c hc)) h.2.2.1 (fun c hc => blank_space (h.2.2.2.1 c hc))
  | quoted a q w b => exact strip_append_blank (fun c hc => blank_space (h.2.2.2.1 c hc))

theorem tok_word {w : Word} (h : w.Valid) {R : Str} (hR : Stops w R) :
    getPropToken (pinit (w.text ++ R)) = .ok (w.says, pinit R) := by
  obtain ⟨N, hN⟩ := tokenLoop_word h hR
  obtain ⟨c, Y, hY, hc⟩ := word_head h
  rw [hY, List.cons_append] at hN ⊢
  exact getPropToken_step (dl := []) (by simp) hc hN (raw_ne_percent h) (by rw [trimStr_strip, strip_raw h])

/-! ### Gaps -/

theorem gap_head {g : List Gap} (hg : ∀ x ∈ g, x.Valid) : gapsText g = [] ∧ g = [] ∨ ∃ c Y, gapsText g = c :: Y ∧
    (strchr propDelims c = true ∨ c = 37) := by
  cases g with
  | nil => left; exact ⟨rfl, rfl⟩
  | cons x g =>
    right
    have := hg x (by simp)
    cases x with
    | sep c => exact ⟨c, _, by simp [gapsText, Gap.text]; rfl, Or.inl (separator_delim this)⟩
    | comment w e => exact ⟨37, _, by simp [gapsText, Gap.text]; rfl, Or.inr rfl⟩

theorem tok_gaps {g : List Gap} (hg : ∀ x ∈ g, x.Valid) (R : Str) :
    getPropToken (pinit (gapsText g ++ R)) = getPropToken (pinit R) := by
  induction g with
  | nil => rfl
  | cons x g ih =>
    have ih' := ih (fun y hy => hg y (by simp [hy]))
    have hx := hg x (by simp)
    have e : gapsText (x :: g) ++ R = x.text ++ (gapsText g ++ R) := by simp [gapsText]
    rw [e]
    cases x with
    | sep c =>
      rw [← ih', Gap.text, pinit_delims (by simpa using separator_delim hx)]
    | comment w c =>
      obtain ⟨⟨h1, h2⟩, h3⟩ := hx
      have hd : strchr propDelims c = true := by rcases h3 with rfl | rfl <;> decide
      rw [Gap.text, List.append_assoc, getPropToken_comment_line h1 h2 (by
        intro d hd
        simp at hd
        rw [← hd]; exact h3), pinit_delims (by simpa using hd), ih']

theorem pinit_rest {g X Y : Str} {c : Byte} (hX : X = g ++ c :: Y) (hc : strchr propDelims c = false) :
    (pinit X).good = true ∧ Y.length + 1 ≤ (pinit X).rest.length := by
  subst hX
  induction g with
  | nil => rw [List.nil_append, pinit_cons hc]; exact ⟨rfl, by simp⟩
  | cons d g ih =>
    by_cases hd : strchr propDelims d = true
    · have := pinit_delims (dl := [d]) (x := g ++ c :: Y) (by simpa using hd)
      simp only [List.singleton_append] at this
      rw [List.cons_append, this]
      exact ih
    · rw [List.cons_append, pinit_cons (by simpa using hd)]
      refine ⟨rfl, ?_⟩
      simp; omega

/-! ### Entries -/

mutual
/-- How much fuel reading an entry takes, after its key. -/
def entryFuel : Entry → Nat
  | .pair .. => 1
  | .group _ _ _ es _ => 1 + entriesFuel es
/-- How much fuel reading the entries of a group takes. -/
def entriesFuel : List Entry → Nat
  | [] => 2
  | e :: es => 1 + max (entryFuel e) (entriesFuel es)
end

theorem word_length {w : Word} (h : w.Valid) : 1 ≤ w.text.length := by
  obtain ⟨c, Y, hY, _⟩ := word_head h
  simp [hY]

mutual
theorem entryFuel_le {l : Prop} : ∀ {e : Entry}, e.Valid l → entryFuel e + 1 ≤ e.text.length + 1
  | .pair k g1 g2 v g3, _ => by simp [entryFuel, Entry.text]; omega
  | .group k g1 g2 es g3, h => by
    have h1 := entriesFuel_le (es := es) h.2.1
    have h2 := word_length h.1.1
    simp [entryFuel, Entry.text]; omega
theorem entriesFuel_le : ∀ {es : List Entry}, entriesValid es → entriesFuel es ≤ (entriesText es).length + 2
  | [], _ => by simp [entriesFuel]
  | e :: es, h => by
    have h1 := entryFuel_le (e := e) h.1
    have h2 := entriesFuel_le (es := es) h.2
    have h3 : 1 ≤ e.text.length := by
      cases e with
      | pair k g1 g2 v g3 => simp [Entry.text]; omega
      | group k g1 g2 es' g3 => simp [Entry.text]; omega
    simp [entriesFuel, entriesText]; omega
end

theorem key_label {w : Word} (h : w.IsKey) : isValidLabel w.says = .ok true ∧ w.says ≠ b!"}" ∧ ¬ w.Nothing := by
  obtain ⟨hv, c, hc, hl⟩ := h
  refine ⟨?_, ?_, ?_⟩
  · cases e : w.says with
    | nil => rw [e] at hc; simp at hc
    | cons d ds =>
      rw [e] at hc; simp at hc; subst hc
      have hlt : ¬ 128 ≤ d.toNat := by unfold IsLetter at hl; omega
      simp only [isValidLabel, if_neg hlt]
      have : isAlphaC d = true := by
        simp only [isAlphaC, Bool.or_eq_true, Bool.and_eq_true, decide_eq_true_eq, UInt8.le_iff_toNat_le]
        exact hl
      rw [this]
  · intro e
    rw [e] at hc; simp at hc; subst hc
    revert hl; decide
  · intro hn
    cases w with
    | bare => exact hn
    | quoted a q w b =>
      obtain ⟨rfl, rfl⟩ := hn
      simp [Word.says, strip] at hc

/-- What follows the key of an entry. -/
def afterKey : Entry → Str
  | .pair _ g1 g2 v g3 => gapsText g1 ++ b!"=" ++ gapsText g2 ++ v.text ++ gapsText g3
  | .group _ g1 g2 es g3 => gapsText g1 ++ b!"{" ++ gapsText g2 ++ entriesText es ++ b!"}" ++ gapsText g3

/-- The key of an entry. -/
def entryKey : Entry → Word
  | .pair k .. => k
  | .group k .. => k

theorem entry_text (e : Entry) : e.text = (entryKey e).text ++ afterKey e := by
  cases e <;> simp [Entry.text, entryKey, afterKey]

theorem entry_key_says (e : Entry) : e.node.1 = (entryKey e).says := by
  cases e <;> simp [Entry.node, entryKey]

theorem entry_isKey {l : Prop} {e : Entry} (h : e.Valid l) : (entryKey e).IsKey := by
  cases e <;> exact h.1

/-- The key is followed by gaps and an operator. -/
theorem afterKey_stops {l : Prop} {e : Entry} (h : e.Valid l) (R : Str) : Stops (entryKey e) (afterKey e ++ R) := by
  have hn := (key_label (entry_isKey h)).2.2
  have key : ∀ (g : List Gap) (c : Byte) (Z : Str), (∀ x ∈ g, x.Valid) → (c = 61 ∨ c = 123) →
      Stops (entryKey e) (gapsText g ++ c :: Z) := by
    intro g c Z hg hc
    right
    rcases gap_head hg with ⟨h1, -⟩ | ⟨d, Y, h1, h2⟩
    · rw [h1]
      exact ⟨c, Z, rfl, Or.inr ⟨hn, by rcases hc with rfl | rfl <;> simp⟩⟩
    · rw [h1]
      refine ⟨d, Y ++ c :: Z, rfl, ?_⟩
      rcases h2 with h2 | h2
      · exact Or.inl h2
      · exact Or.inr ⟨hn, by simp [h2]⟩
  cases e with
  | pair k g1 g2 v g3 =>
    have := key g1 61 (gapsText g2 ++ v.text ++ gapsText g3 ++ R) (fun x hx => h.2.2.1 x (by simp [hx])) (Or.inl rfl)
    simpa [afterKey] using this
  | group k g1 g2 es g3 =>
    have := key g1 123 (gapsText g2 ++ entriesText es ++ b!"}" ++ gapsText g3 ++ R) (fun x hx => h.2.2 x (by simp [hx]))
      (Or.inr rfl)
    simpa [afterKey] using this

theorem tok_key {l : Prop} {e : Entry} (h : e.Valid l) (R : Str) :
    getPropToken (pinit (e.text ++ R)) = .ok (e.node.1, pinit (afterKey e ++ R)) := by
  rw [entry_text, List.append_assoc, entry_key_says]
  exact tok_word (entry_isKey h).1 (afterKey_stops h R)

theorem tok_op' {g : List Gap} (hg : ∀ x ∈ g, x.Valid) {op : Byte} (hop : op = 61 ∨ op = 123 ∨ op = 125) (R : Str) :
    getPropToken (pinit (gapsText g ++ op :: R)) = .ok ([op], pinit R) := by
  rw [tok_gaps hg]
  exact tok_op (dl := []) (by simp) hop

/-- What may follow an entry that is the last one: the closing brace, or the end. -/
def Closes (R : Str) : Prop := R = [] ∨ ∃ c R', R = c :: R' ∧ (c = 125 ∨ c = 37)

mutual
theorem read_entry {l : Prop} : ∀ {e : Entry}, e.Valid l → ∀ {R : Str}, (l → Closes R) → ∀ {f : Nat}, entryFuel e ≤ f →
    ∃ s, readNode f (pinit (afterKey e ++ R)) = .ok (e.node.2, s) ∧ getPropToken s = getPropToken (pinit R) ∧
      ∀ c Y, R = c :: Y → strchr propDelims c = false → s.good = true
  | .pair k g1 g2 v g3, h, R, hR, f, hf => by
    obtain ⟨h1, h2, h3, h4, h5⟩ := h
    obtain ⟨f, rfl⟩ : ∃ g, f = g + 1 := ⟨f - 1, by simp [entryFuel] at hf; omega⟩
    have e : afterKey (.pair k g1 g2 v g3) ++ R = gapsText g1 ++ 61 :: (gapsText g2 ++ (v.text ++ (gapsText g3 ++ R))) := by
      simp [afterKey]
    have t1 := tok_op' (g := g1) (op := 61) (fun x hx => h3 x (by simp [hx])) (by simp)
      (gapsText g2 ++ (v.text ++ (gapsText g3 ++ R)))
    have g3v : ∀ x ∈ g3, x.Valid := fun x hx => h3 x (by simp [hx])
    have stop : Stops v (gapsText g3 ++ R) := by
      rcases gap_head g3v with ⟨k1, k2⟩ | ⟨d, Y, k1, k2⟩
      · have hl : l := by
          rcases h4 with h4 | h4
          · exact absurd k2 h4
          · exact h4
        have hn : ¬ v.Nothing := by
          intro hn
          obtain ⟨c, hc⟩ := h5 hn
          rw [k2] at hc; simp at hc
        rw [k1, List.nil_append]
        rcases hR hl with rfl | ⟨c, R', rfl, hc⟩
        · exact Or.inl rfl
        · exact Or.inr ⟨c, R', rfl, Or.inr ⟨hn, by rcases hc with rfl | rfl <;> simp⟩⟩
      · right
        refine ⟨d, Y ++ R, by rw [k1]; rfl, ?_⟩
        by_cases hn : v.Nothing
        · obtain ⟨c, hc⟩ := h5 hn
          left
          cases g3 with
          | nil => simp at hc
          | cons x g3 =>
            simp at hc; subst hc
            have := g3v (.sep c) (by simp)
            simp [gapsText, Gap.text] at k1
            rw [← k1.1]; exact separator_delim this
        · rcases k2 with k2 | k2
          · exact Or.inl k2
          · exact Or.inr ⟨hn, by simp [k2]⟩
    have t2 : getPropToken (pinit (gapsText g2 ++ (v.text ++ (gapsText g3 ++ R)))) = .ok (v.says, pinit (gapsText g3 ++ R)) := by
      rw [tok_gaps (fun x hx => h3 x (by simp [hx]))]
      exact tok_word h2 stop
    refine ⟨pinit (gapsText g3 ++ R), ?_, tok_gaps g3v R, ?_⟩
    · rw [e]
      simp only [readNode, t1, Res.bind_ok, if_true, t2, Entry.node]
    · rintro c Y rfl hc
      exact (pinit_rest rfl hc).1
  | .group k g1 g2 es g3, h, R, hR, f, hf => by
    obtain ⟨h1, h2, h3⟩ := h
    obtain ⟨f, rfl⟩ : ∃ g, f = g + 1 := ⟨f - 1, by simp [entryFuel] at hf; omega⟩
    have e : afterKey (.group k g1 g2 es g3) ++ R = gapsText g1 ++ 123 :: (gapsText g2 ++ (entriesText es ++ 125 :: (gapsText g3 ++ R))) := by
      simp [afterKey]
    have t1 := tok_op' (g := g1) (op := 123) (fun x hx => h3 x (by simp [hx])) (by simp)
      (gapsText g2 ++ (entriesText es ++ 125 :: (gapsText g3 ++ R)))
    have t2 := read_entries (es := es) h2 (gapsText g3 ++ R) (f := f) (by simp [entryFuel] at hf; omega) b!"{" (by decide)
      (pinit (gapsText g2 ++ (entriesText es ++ 125 :: (gapsText g3 ++ R)))) (tok_gaps (fun x hx => h3 x (by simp [hx])) _)
      (pinit_rest (g := gapsText g2 ++ entriesText es) (c := 125) (Y := gapsText g3 ++ R) (by simp) (by decide)).1
    refine ⟨pinit (gapsText g3 ++ R), ?_, tok_gaps (fun x hx => h3 x (by simp [hx])) R, ?_⟩
    · rw [e]
      simp only [readNode, t1, Res.bind_ok, Entry.node]
      rw [if_neg (by decide)]
      simp only [if_true, t2, Res.bind_ok]
    · rintro c Y rfl hc
      exact (pinit_rest rfl hc).1
theorem read_entries : ∀ {es : List Entry}, entriesValid es → ∀ (R : Str) {f : Nat}, entriesFuel es ≤ f → ∀ (t : Str),
    t ≠ b!"}" → ∀ s : CharStream, getPropToken s = getPropToken (pinit (entriesText es ++ 125 :: R)) → s.good = true →
    readChildren f s t = .ok (entriesNodes es, pinit R)
  | [], _, R, f, hf, t, ht, s, hs, hg => by
    obtain ⟨f, rfl⟩ : ∃ g, f = g + 1 + 1 := ⟨f - 2, by simp [entriesFuel] at hf; omega⟩
    have t1 := tok_op (dl := []) (R := R) (op := 125) (by simp) (by simp)
    simp only [entriesText, List.nil_append] at hs t1
    rw [t1] at hs
    have e1 : isValidLabel [125] = .ok false := by decide
    simp [readChildren, hg, ht, hs, e1, entriesNodes]
  | e :: es, h, R, f, hf, t, ht, s, hs, hg => by
    obtain ⟨f, rfl⟩ : ∃ g, f = g + 1 := ⟨f - 1, by simp [entriesFuel] at hf; omega⟩
    have hf1 : entryFuel e ≤ f := by simp [entriesFuel] at hf; omega
    have hf2 : entriesFuel es ≤ f := by simp [entriesFuel] at hf; omega
    have e1 : entriesText (e :: es) ++ 125 :: R = e.text ++ (entriesText es ++ 125 :: R) := by simp [entriesText]
    rw [e1, tok_key h.1] at hs
    obtain ⟨k1, k2, k3⟩ := key_label (entry_isKey h.1)
    rw [← entry_key_says] at k1 k2
    obtain ⟨s2, r1, r2, r3⟩ := read_entry (e := e) h.1 (R := entriesText es ++ 125 :: R) (by
      rintro rfl
      exact Or.inr ⟨125, R, rfl, Or.inl rfl⟩) hf1
    have hg2 : s2.good = true := by
      cases es with
      | nil => exact r3 125 R rfl (by decide)
      | cons e' es' =>
        obtain ⟨c, Y, hY, hc⟩ := word_head (entry_isKey h.2.1).1
        exact r3 c (Y ++ afterKey e' ++ entriesText es' ++ 125 :: R)
          (by simp [entriesText, entry_text, hY]) hc
    have t2 := read_entries (es := es) h.2 R hf2 e.node.1 k2 s2 r2 hg2
    simp only [readChildren, hg, Bool.true_and, decide_eq_true_eq, ne_eq, ht, not_false_eq_true, if_true, hs,
      Res.bind_ok, k1, r1, t2, entriesNodes]
end

/-! ### Documents -/

theorem entryFuel_rest {l : Prop} {e : Entry} (h : e.Valid l) (R : Str) :
    entryFuel e ≤ (pinit (afterKey e ++ R)).rest.length + 1 := by
  cases e with
  | pair => simp [entryFuel]
  | group k g1 g2 es g3 =>
    have h1 := entriesFuel_le h.2.1
    have := (pinit_rest (X := afterKey (.group k g1 g2 es g3) ++ R) (g := gapsText g1) (c := 123)
      (Y := gapsText g2 ++ entriesText es ++ b!"}" ++ gapsText g3 ++ R) (by simp [afterKey]) (by decide)).2
    simp at this
    simp only [entryFuel]; omega

theorem parse_entries {es : List Entry} (h : entriesValid es) {R : Str} (hR : R = [] ∨ ∃ R', R = 37 :: R')
    (hend : ∃ s, getPropToken (pinit R) = .ok ([], s)) : ∃ t s, getPropToken (pinit (entriesText es ++ R)) = .ok (t, s) ∧
    ∀ f, es.length < f → parseLoop f s t = .ok (entriesNodes es) := by
  induction es with
  | nil =>
    obtain ⟨s, hs⟩ := hend
    refine ⟨[], s, by simpa [entriesText] using hs, ?_⟩
    intro f hf
    obtain ⟨f, rfl⟩ := Nat.exists_eq_add_of_le' (Nat.succ_le_of_lt hf)
    simp only [List.length_nil, parseLoop, isValidLabel, Res.bind_ok, Bool.false_eq_true, if_false, entriesNodes]
  | cons e es ih =>
    obtain ⟨t, s', h1, h2⟩ := ih h.2
    obtain ⟨k1, -, -⟩ := key_label (entry_isKey h.1)
    rw [← entry_key_says] at k1
    refine ⟨e.node.1, _, by rw [entriesText, List.append_assoc]; exact tok_key h.1 _, ?_⟩
    intro f hf
    simp at hf
    obtain ⟨f, rfl⟩ : ∃ g, f = g + 1 := ⟨f - 1, by omega⟩
    obtain ⟨s2, r1, r2, -⟩ := read_entry (e := e) h.1 (R := entriesText es ++ R) (by
      rintro rfl
      rcases hR with rfl | ⟨R', rfl⟩
      · exact Or.inl rfl
      · exact Or.inr ⟨37, R', rfl, Or.inr rfl⟩) (entryFuel_rest h.1 (entriesText es ++ R))
    rw [h1] at r2
    simp only [parseLoop, k1, Res.bind_ok, if_true, r1, r2, h2 f (by omega), entriesNodes]

theorem gaps_ne_zero {g : List Gap} (hg : ∀ x ∈ g, x.Valid) : ∀ c ∈ gapsText g, c ≠ 0 := by
  intro c hc
  simp only [gapsText, List.mem_flatMap] at hc
  obtain ⟨x, hx, hc⟩ := hc
  have hv := hg x hx
  cases x with
  | sep d =>
    simp [Gap.text] at hc; subst hc
    rintro rfl; exact absurd hv (by decide)
  | comment w e =>
    simp [Gap.text] at hc
    rcases hc with rfl | hc | rfl
    · decide
    · exact (hv.1.1 c hc).1
    · rcases hv.2 with rfl | rfl <;> decide

theorem word_ne_zero {w : Word} (h : w.Valid) : ∀ c ∈ w.text, c ≠ 0 := by
  have hb : ∀ {c : Byte}, IsBlank c → c ≠ 0 := fun h => (blank_wordChar h).1
  cases w with
  | bare a w b =>
    intro c hc
    simp only [Word.text, List.mem_append] at hc
    rcases hc with (hc | hc) | hc
    · exact hb (h.1 c hc)
    · exact (h.2.1 c hc).1
    · exact hb (h.2.2.2.1 c hc)
  | quoted a q w b =>
    obtain ⟨h1, h2, h3, h4, h5⟩ := h
    intro c hc
    have hq : q ≠ 0 := by rcases h2 with rfl | rfl <;> decide
    simp only [Word.text, List.mem_append, List.mem_singleton, List.mem_flatMap] at hc
    rcases hc with (((hc | rfl) | ⟨x, hx, hc⟩) | rfl) | hc
    · exact hb (h1 c hc)
    · exact hq
    · cases x with
      | raw d =>
        simp [QuotedChar.text] at hc; subst hc
        exact (h3 _ hx c rfl).1
      | _ => simp [QuotedChar.text] at hc; rcases hc with rfl | rfl <;> decide
    · exact hq
    · exact hb (h4 c hc)

mutual
theorem entry_ne_zero {l : Prop} : ∀ {e : Entry}, e.Valid l → ∀ c ∈ e.text, c ≠ 0
  | .pair k g1 g2 v g3, h => by
    obtain ⟨h1, h2, h3, h4, h5⟩ := h
    intro c hc
    simp only [Entry.text, List.mem_append, List.mem_singleton] at hc
    rcases hc with ((((hc | hc) | rfl) | hc) | hc) | hc
    · exact word_ne_zero h1.1 c hc
    · exact gaps_ne_zero (fun x hx => h3 x (by simp [hx])) c hc
    · decide
    · exact gaps_ne_zero (fun x hx => h3 x (by simp [hx])) c hc
    · exact word_ne_zero h2 c hc
    · exact gaps_ne_zero (fun x hx => h3 x (by simp [hx])) c hc
  | .group k g1 g2 es g3, h => by
    obtain ⟨h1, h2, h3⟩ := h
    intro c hc
    simp only [Entry.text, List.mem_append, List.mem_singleton] at hc
    rcases hc with (((((hc | hc) | rfl) | hc) | hc) | rfl) | hc
    · exact word_ne_zero h1.1 c hc
    · exact gaps_ne_zero (fun x hx => h3 x (by simp [hx])) c hc
    · decide
    · exact gaps_ne_zero (fun x hx => h3 x (by simp [hx])) c hc
    · exact entries_ne_zero (es := es) h2 c hc
    · decide
    · exact gaps_ne_zero (fun x hx => h3 x (by simp [hx])) c hc
theorem entries_ne_zero : ∀ {es : List Entry}, entriesValid es → ∀ c ∈ entriesText es, c ≠ 0
  | [], _ => by simp [entriesText]
  | e :: es, h => by
    intro c hc
    simp only [entriesText, List.mem_append] at hc
    rcases hc with hc | hc
    · exact entry_ne_zero (e := e) h.1 c hc
    · exact entries_ne_zero (es := es) h.2 c hc
end

theorem entries_length : ∀ {es : List Entry}, entriesValid es → ∀ (g : List Gap) (R : Str),
    es.length ≤ (pinit (gapsText g ++ entriesText es ++ R)).rest.length
  | [], _, _, _ => by simp
  | e :: es, h, g, R => by
    have key : ∀ {es : List Entry}, entriesValid es → es.length ≤ (entriesText es).length := by
      intro es h
      induction es with
      | nil => simp
      | cons e es ih =>
        have := word_length (entry_isKey h.1).1
        have := ih h.2
        simp [entriesText, entry_text]; omega
    obtain ⟨c, Y, hY, hc⟩ := word_head (entry_isKey h.1).1
    have h1 := (pinit_rest (X := gapsText g ++ entriesText (e :: es) ++ R) (g := gapsText g) (c := c)
      (Y := Y ++ afterKey e ++ entriesText es ++ R) (by simp [entriesText, entry_text, hY]) hc).2
    have h2 := key h.2
    simp at h1
    simp; omega

theorem parseProp_document {d : Document} (h : d.Valid) : parseProp d.text = .ok d.tree := by
  obtain ⟨g, es, lc⟩ := d
  obtain ⟨h1, h2, h3⟩ := h
  simp only at h1 h2 h3
  obtain ⟨R, hR, hR2, hR3, hR4⟩ : ∃ R, (Document.mk g es lc).text = gapsText g ++ entriesText es ++ R ∧
      (R = [] ∨ ∃ R', R = 37 :: R') ∧ (∃ s, getPropToken (pinit R) = .ok ([], s)) ∧ ∀ c ∈ R, c ≠ 0 := by
    have e0 : getPropToken (pinit []) = .ok ([], pinit []) := by decide
    cases lc with
    | none => exact ⟨[], rfl, Or.inl rfl, ⟨_, e0⟩, by simp⟩
    | some w =>
      obtain ⟨k1, k2⟩ := h3 w rfl
      refine ⟨b!"%" ++ w, rfl, Or.inr ⟨w, rfl⟩, ⟨pinit [], ?_⟩, ?_⟩
      · have := getPropToken_comment_line (R := []) k1 k2 (by simp)
        rw [List.append_nil] at this
        rw [this, e0]
      · intro c hc
        simp at hc
        rcases hc with rfl | hc
        · decide
        · exact (k1 c hc).1
  have hz : cstr (Document.mk g es lc).text = (Document.mk g es lc).text := by
    apply cstr_of_ne_zero
    rw [hR]
    intro c hc
    simp only [List.mem_append] at hc
    rcases hc with (hc | hc) | hc
    · exact gaps_ne_zero h1 c hc
    · exact entries_ne_zero h2 c hc
    · exact hR4 c hc
  rw [parseProp, ofCStr, hz, hR]
  obtain ⟨t, s, t1, t2⟩ := parse_entries h2 hR2 hR3
  have hl := entries_length h2 g R
  have t3 := tok_gaps h1 (entriesText es ++ R)
  rw [t1, ← List.append_assoc] at t3
  simp only [parseStream]
  show (getPropToken (pinit _) >>= _) = _
  rw [t3]
  simp only [Res.bind_ok]
  rw [t2 _ (Nat.lt_succ_of_le hl)]
  rfl

end Flut
