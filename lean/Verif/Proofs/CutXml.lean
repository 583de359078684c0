import Verif.Proofs.XmlDoc

/-! # XML texts that are cut short

If the parser accepts a text, then on a prefix of it the parser of each part gives the same part, or throws, or stops at the
end of the prefix. -/

namespace Flut.Xml

/-- The outcome `x` of a parser on a prefix `s'` of `s`, where it gives `a` and leaves `r` on `s`: it does not accept, or it gives
the same and leaves a prefix of `r`. -/
def Hard {α : Type} (x : Res (α × Str)) (s s' : Str) (a : α) (r : Str) : Prop :=
  x = .diverges ∨ (∃ e, x = .throws e) ∨
    ∃ r', r' <+: r ∧ s'.length + r.length = s.length + r'.length ∧ x = .ok (a, r')

/-- The same, or the parser stops at the end of the prefix. -/
def Soft {α : Type} (x : Res (α × Str)) (s s' : Str) (a : α) (r : Str) : Prop :=
  Hard x s s' a r ∨ ∃ a', x = .ok (a', [])

theorem prefix_cons_cases {c : Byte} {s s' : Str} (h : s' <+: c :: s) : s' = [] ∨ ∃ t, s' = c :: t ∧ t <+: s := by
  cases s' with
  | nil => exact .inl rfl
  | cons d t =>
    rw [List.cons_prefix_cons] at h
    exact .inr ⟨t, by rw [h.1], h.2⟩

theorem while_prefix (p : Byte → Bool) : ∀ {s s' : Str}, s' <+: s →
    (s'.takeWhile p = s' ∧ s'.dropWhile p = []) ∨
    (s'.takeWhile p = s.takeWhile p ∧ s'.dropWhile p <+: s.dropWhile p ∧ s'.dropWhile p ≠ [] ∧
      s'.length + (s.dropWhile p).length = s.length + (s'.dropWhile p).length) := by
  intro s
  induction s with
  | nil =>
    intro s' h
    rw [List.prefix_nil] at h
    subst h
    exact .inl ⟨rfl, rfl⟩
  | cons c s ih =>
    intro s' h
    rcases prefix_cons_cases h with rfl | ⟨t, rfl, ht⟩
    · exact .inl ⟨rfl, rfl⟩
    · by_cases hc : p c = true
      · simp only [List.takeWhile_cons, List.dropWhile_cons, hc, if_true]
        rcases ih ht with ⟨h1, h2⟩ | ⟨h1, h2, h3, h4⟩
        · exact .inl ⟨by rw [h1], h2⟩
        · refine .inr ⟨by rw [h1], h2, h3, ?_⟩
          simp only [List.length_cons]; omega
      · simp only [List.takeWhile_cons, List.dropWhile_cons, hc]
        refine .inr ⟨rfl, ?_, by simp, ?_⟩
        · simpa using ht
        · simp; omega

theorem drop_prefix {s s' : Str} (h : s' <+: s) (n : Nat) : s'.drop n <+: s.drop n := by
  obtain ⟨u, rfl⟩ := h
  rw [List.drop_append]
  exact List.prefix_append ..

/-- A mark at the start of the text is at the start of the prefix, or the prefix is a proper prefix of the mark. -/
theorem mark_prefix {m s s' : Str} (h : s' <+: s) (hm : m <+: s) : m <+: s' ∨ (s' <+: m ∧ s'.length < m.length) := by
  by_cases hl : m.length ≤ s'.length
  · exact .inl (List.prefix_of_prefix_length_le hm h hl)
  · exact .inr ⟨List.prefix_of_prefix_length_le h hm (by omega), by omega⟩

theorem skipTo_short {m : Str} : ∀ {s : Str}, s.length < m.length → skipTo m s = .throws .parseError := by
  intro s
  induction s with
  | nil => intro _; rfl
  | cons c s ih =>
    intro h
    rw [skipTo, if_neg, ih (by simp at h; omega)]
    intro hp
    have := (List.isPrefixOf_iff_prefix.1 hp).length_le
    omega

theorem skipTo_absent {m : Str} {x : Byte} (hx : x ∈ m) : ∀ {s : Str}, x ∉ s → skipTo m s = .throws .parseError := by
  intro s
  induction s with
  | nil => intro _; rfl
  | cons c s ih =>
    intro h
    rw [skipTo, if_neg, ih (by simp at h; exact h.2)]
    intro hp
    exact h ((List.isPrefixOf_iff_prefix.1 hp).subset hx)

theorem skipTo_cut {m : Str} : ∀ {s s' r : Str}, s' <+: s → skipTo m s = .ok r →
    skipTo m s' = .throws .parseError ∨
      ∃ r', r' <+: r ∧ s'.length + r.length = s.length + r'.length ∧ skipTo m s' = .ok r' := by
  intro s
  induction s with
  | nil => intro s' r _ h; simp [skipTo] at h
  | cons c s ih =>
    intro s' r hp h
    rw [skipTo] at h
    split at h
    next hm =>
      have hm := List.isPrefixOf_iff_prefix.1 hm
      rcases mark_prefix hp hm with h1 | ⟨-, h1⟩
      · cases h
        rcases prefix_cons_cases hp with rfl | ⟨t, rfl, ht⟩
        · exact .inl rfl
        · refine .inr ⟨(c :: t).drop m.length, drop_prefix hp _, ?_, ?_⟩
          · have := h1.length_le
            have := hm.length_le
            simp only [List.length_drop]; omega
          · rw [skipTo, if_pos (List.isPrefixOf_iff_prefix.2 h1)]
      · exact .inl (skipTo_short h1)
    next hm =>
      rcases prefix_cons_cases hp with rfl | ⟨t, rfl, ht⟩
      · exact .inl rfl
      · rw [skipTo, if_neg]
        · rcases ih ht h with h1 | ⟨r', h1, h2, h3⟩
          · exact .inl h1
          · exact .inr ⟨r', h1, by simp; omega, h3⟩
        · intro h2
          exact hm (List.isPrefixOf_iff_prefix.2 ((List.isPrefixOf_iff_prefix.1 h2).trans hp))

theorem readCdata_short : ∀ {s : Str}, s.length < 3 → readCdata s = .throws .parseError := by
  intro s
  induction s with
  | nil => intro _; rfl
  | cons c s ih =>
    intro h
    rw [readCdata, if_neg, ih (by simp at h; omega)]
    · rfl
    · intro hp
      have := (List.isPrefixOf_iff_prefix.1 hp).length_le
      simp at this h; omega

theorem readCdata_cut : ∀ {s s' v r : Str}, s' <+: s → readCdata s = .ok (v, r) → Hard (readCdata s') s s' v r := by
  intro s
  induction s with
  | nil => intro s' v r _ h; simp [readCdata] at h
  | cons c s ih =>
    intro s' v r hp h
    rw [readCdata] at h
    split at h
    next hm =>
      have hm := List.isPrefixOf_iff_prefix.1 hm
      rcases mark_prefix hp hm with h1 | ⟨-, h1⟩
      · simp only [Res.ok.injEq, Prod.mk.injEq] at h
        obtain ⟨rfl, rfl⟩ := h
        rcases prefix_cons_cases hp with rfl | ⟨t, rfl, ht⟩
        · exact .inr (.inl ⟨_, rfl⟩)
        · refine .inr (.inr ⟨(c :: t).drop 3, drop_prefix hp _, ?_, ?_⟩)
          · have := h1.length_le
            have := hm.length_le
            simp only [List.length_drop]; simp at *; omega
          · rw [readCdata, if_pos (List.isPrefixOf_iff_prefix.2 h1)]
      · exact .inr (.inl ⟨_, readCdata_short h1⟩)
    next hm =>
      rcases prefix_cons_cases hp with rfl | ⟨t, rfl, ht⟩
      · exact .inr (.inl ⟨_, rfl⟩)
      · rw [Res.bind_eq_ok] at h
        obtain ⟨⟨v1, r1⟩, h1, h2⟩ := h
        simp only [Res.ok.injEq, Prod.mk.injEq] at h2
        obtain ⟨rfl, rfl⟩ := h2
        rw [readCdata, if_neg]
        · rcases ih ht h1 with h3 | ⟨e, h3⟩ | ⟨r', h3, h4, h5⟩
          · exact .inl (by rw [h3]; rfl)
          · exact .inr (.inl ⟨e, by rw [h3]; rfl⟩)
          · exact .inr (.inr ⟨r', h3, by simp; omega, by rw [h5]; rfl⟩)
        · intro h2
          exact hm (List.isPrefixOf_iff_prefix.2 ((List.isPrefixOf_iff_prefix.1 h2).trans hp))

theorem skipDoctype_cut : ∀ {s s' r : Str} {d : Nat}, s' <+: s → skipDoctype d s = .ok r →
    skipDoctype d s' = .throws .parseError ∨
      ∃ r', r' <+: r ∧ s'.length + r.length = s.length + r'.length ∧ skipDoctype d s' = .ok r' := by
  intro s
  induction s with
  | nil => intro s' r d _ h; cases d <;> simp [skipDoctype] at h
  | cons c s ih =>
    intro s' r d hp h
    rcases prefix_cons_cases hp with rfl | ⟨t, rfl, ht⟩
    · left; cases d <;> rfl
    · have key : ∀ d, skipDoctype d s = .ok r → skipDoctype d t = .throws .parseError ∨
          ∃ r', r' <+: r ∧ (c :: t).length + r.length = (c :: s).length + r'.length ∧ skipDoctype d t = .ok r' := by
        intro d hd
        rcases ih ht hd with h1 | ⟨r', h1, h2, h3⟩
        · exact .inl h1
        · exact .inr ⟨r', h1, by simp; omega, h3⟩
      cases d with
      | zero =>
        rw [skipDoctype] at h ⊢
        split
        next hc =>
          rw [if_pos hc] at h
          cases h
          exact .inr ⟨t, ht, by simp; omega, rfl⟩
        next hc =>
          rw [if_neg hc] at h
          split
          next hc => rw [if_pos hc] at h; exact key _ h
          next hc => rw [if_neg hc] at h; exact key _ h
      | succ d =>
        rw [skipDoctype] at h ⊢
        split
        next hc => rw [if_pos hc] at h; exact key _ h
        next hc =>
          rw [if_neg hc] at h
          split
          next hc => rw [if_pos hc] at h; exact key _ h
          next hc => rw [if_neg hc] at h; exact key _ h

theorem readCode_cut (base : Nat) : ∀ {s s' r : Str} {a c : Nat}, s' <+: s → readCode base a s = (c, r) →
    (readCode base a s').2 = [] ∨
      ∃ r', r' <+: r ∧ s'.length + r.length = s.length + r'.length ∧ readCode base a s' = (c, r') := by
  intro s
  induction s with
  | nil =>
    intro s' r a c hp _
    rw [List.prefix_nil] at hp
    subst hp
    exact .inl rfl
  | cons x s ih =>
    intro s' r a c hp h
    rcases prefix_cons_cases hp with rfl | ⟨t, rfl, ht⟩
    · exact .inl rfl
    · rw [readCode] at h ⊢
      cases hd : digitValue x with
      | none =>
        rw [hd] at h
        simp only [Prod.mk.injEq] at h
        obtain ⟨rfl, rfl⟩ := h
        exact .inr ⟨x :: t, hp, by omega, rfl⟩
      | some d =>
        rw [hd] at h
        rcases ih ht h with h1 | ⟨r', h1, h2, h3⟩
        · exact .inl h1
        · exact .inr ⟨r', h1, by simp; omega, h3⟩

/-- A text without references and without the end character is copied. -/
theorem expandN_plain {p : Byte → Bool} : ∀ (n : Nat) {s : Str}, (∀ c ∈ s, p c = true ∧ c ≠ 38) →
    expandN p n s = .diverges ∨ expandN p n s = .ok (s, []) := by
  intro n
  induction n with
  | zero => intro s _; exact .inl (by simp [expandN])
  | succ n ih =>
    intro s hs
    cases s with
    | nil => exact .inr (by simp [expandN])
    | cons c s =>
      obtain ⟨h1, h2⟩ := hs c (by simp)
      rw [expandN_lit p n c s h1 h2]
      rcases ih (s := s) (fun x hx => hs x (by simp [hx])) with h | h
      · exact .inl (by rw [h]; rfl)
      · exact .inr (by rw [h]; rfl)

/-- The characters of names of entities do not end a text. -/
def EntityOk (p : Byte → Bool) : Prop := p 38 = true ∧ ∀ c ∈ b!"amposqugtl;", p c = true

theorem entityOk_text : EntityOk isTextChar := by unfold EntityOk; decide
theorem entityOk_attr {q : Byte} (h : q = 39 ∨ q = 34) : EntityOk (isAttrData q) := by
  unfold EntityOk
  rcases h with rfl | rfl <;> decide

theorem expandN_short {p : Byte → Bool} (hp : EntityOk p) {m t : Str} (hm : ∀ c ∈ m, c ∈ b!"amposqugtl;") (ht : t <+: m)
    (n : Nat) : expandN p n t = .diverges ∨ expandN p n t = .ok (t, []) := by
  apply expandN_plain
  intro c hc
  have h1 := hm c (ht.subset hc)
  exact ⟨hp.2 c h1, by intro h; subst h; exact absurd h1 (by decide)⟩

theorem expandN_nil {p : Byte → Bool} (n : Nat) : expandN p n [] = .diverges ∨ expandN p n [] = .ok ([], []) := by
  cases n with
  | zero => exact .inl rfl
  | succ n => exact .inr rfl

theorem codedChar_cases (code : Nat) : (∃ b, codedChar code = .ok b) ∨ codedChar code = .throws .parseError := by
  unfold codedChar
  repeat' split
  all_goals first | exact .inl ⟨_, rfl⟩ | exact .inr rfl

/-- The marks that can follow `&`. -/
def marks : List Str := [b!"amp;", b!"apos;", b!"quot;", b!"gt;", b!"lt;", b!"#"]

theorem expandN_amp_none {p : Byte → Bool} (hp : p 38 = true) (n : Nat) {t : Str} (h : ∀ m ∈ marks, ¬ m <+: t) :
    expandN p (n + 1) (38 :: t) = (do let (u, r) ← expandN p n t; .ok (38 :: u, r)) := by
  have hn : ∀ m ∈ marks, (m.isPrefixOf t) = false := fun m hm => by
    rw [Bool.eq_false_iff]; exact fun h1 => h m hm (List.isPrefixOf_iff_prefix.1 h1)
  rw [expandN, if_pos hp, if_pos rfl]
  simp only [hn _ (show b!"amp;" ∈ marks by decide), hn _ (show b!"apos;" ∈ marks by decide),
    hn _ (show b!"quot;" ∈ marks by decide), hn _ (show b!"gt;" ∈ marks by decide), hn _ (show b!"lt;" ∈ marks by decide),
    hn _ (show b!"#" ∈ marks by decide), Bool.false_eq_true, if_false]

/-- A proper prefix of a mark starts with no mark. -/
theorem marks_short {m t : Str} (hm : m ∈ marks) (ht : t <+: m) (hl : t.length < m.length) : ∀ m' ∈ marks, ¬ m' <+: t := by
  intro m' hm' h
  have h1 := h.trans ht
  have h2 := h.length_le
  have : ∀ m ∈ marks, ∀ m' ∈ marks, m' <+: m → m' = m := by decide
  rw [this m hm m' hm' h1] at h2
  omega

theorem Hard.bind {α β : Type} {x : Res (α × Str)} {s s' : Str} {a : α} {r : Str} {f : α → β} {s1 s1' : Str}
    (h : Hard x s s' a r) (hl : s1.length + s'.length = s.length + s1'.length) :
    Hard (do let (u, r) ← x; .ok (f u, r)) s1 s1' (f a) r := by
  rcases h with h | ⟨e, h⟩ | ⟨r', h1, h2, h3⟩
  · exact .inl (by rw [h]; rfl)
  · exact .inr (.inl ⟨e, by rw [h]; rfl⟩)
  · exact .inr (.inr ⟨r', h1, by omega, by rw [h3]; rfl⟩)

theorem Soft.bind {α β : Type} {x : Res (α × Str)} {s s' : Str} {a : α} {r : Str} {f : α → β} {s1 s1' : Str}
    (h : Soft x s s' a r) (hl : s1.length + s'.length = s.length + s1'.length) :
    Soft (do let (u, r) ← x; .ok (f u, r)) s1 s1' (f a) r := by
  rcases h with h | ⟨a', h⟩
  · exact .inl (h.bind hl)
  · exact .inr ⟨f a', by rw [h]; rfl⟩

theorem bind_ok_inv {α β : Type} {x : Res (α × Str)} {f : α → β} {b : β} {r : Str}
    (h : (do let (u, r) ← x; .ok (f u, r)) = Res.ok (b, r)) : ∃ a, x = .ok (a, r) ∧ b = f a := by
  rw [Res.bind_eq_ok] at h
  obtain ⟨⟨v1, r1⟩, h1, h2⟩ := h
  simp only [Res.ok.injEq, Prod.mk.injEq] at h2
  obtain ⟨rfl, rfl⟩ := h2
  exact ⟨v1, h1, rfl⟩

theorem expandN_cut {p : Byte → Bool} (hp : EntityOk p) : ∀ (n n' : Nat) {s s' d r : Str}, s' <+: s →
    expandN p n s = .ok (d, r) → Soft (expandN p n' s') s s' d r := by
  intro n
  induction n with
  | zero => intro n' s s' d r _ h; simp [expandN] at h
  | succ n ih =>
    intro n' s s' d r hs h
    cases n' with
    | zero => exact .inl (.inl (by simp [expandN]))
    | succ n' =>
      cases s with
      | nil =>
        rw [List.prefix_nil] at hs
        subst hs
        exact .inr ⟨[], rfl⟩
      | cons c s =>
        rcases prefix_cons_cases hs with rfl | ⟨t, rfl, ht⟩
        · exact .inr ⟨[], rfl⟩
        · by_cases hc : p c = true
          · by_cases h38 : c = 38
            · subst h38
              -- a named entity
              have named : ∀ m ∈ marks, (∀ c ∈ m, c ∈ b!"amposqugtl;") → ∀ x : Byte, m <+: s →
                  (expandN p (n + 1) (38 :: s) = do let (u, r) ← expandN p n (s.drop m.length); .ok (x :: u, r)) →
                  (m <+: t → expandN p (n' + 1) (38 :: t) = do let (u, r) ← expandN p n' (t.drop m.length); .ok (x :: u, r)) →
                  Soft (expandN p (n' + 1) (38 :: t)) (38 :: s) (38 :: t) d r := by
                intro m hm hmc x hms h1 h2
                rw [h1] at h
                obtain ⟨d1, h3, rfl⟩ := bind_ok_inv (f := fun u => x :: u) h
                rcases mark_prefix ht hms with h4 | ⟨h4, h5⟩
                · rw [h2 h4]
                  refine (ih n' (drop_prefix ht m.length) h3).bind (f := fun u => x :: u) ?_
                  have := h4.length_le
                  have := hms.length_le
                  simp only [List.length_cons, List.length_drop]; omega
                · rw [expandN_amp_none hp.1 n' (marks_short hm h4 h5)]
                  rcases expandN_short hp hmc h4 n' with h6 | h6
                  · exact .inl (.inl (by rw [h6]; rfl))
                  · exact .inr ⟨_, by rw [h6]; rfl⟩
              have pos : ∀ {m u : Str}, m <+: u → m.isPrefixOf u = true := List.isPrefixOf_iff_prefix.2
              have neg : ∀ {m u : Str}, ¬ m <+: u → m.isPrefixOf u = false := fun {m u} h => by
                rw [Bool.eq_false_iff]; exact fun h1 => h (List.isPrefixOf_iff_prefix.1 h1)
              have up : ∀ {m : Str}, ¬ m <+: s → m.isPrefixOf t = false := fun {m} h => neg fun h1 => h (h1.trans ht)
              by_cases a1 : b!"amp;" <+: s
              · exact named b!"amp;" (by decide) (by decide) 38 a1 (by simp [expandN, hp.1, pos a1])
                  (fun b1 => by simp [expandN, hp.1, pos b1])
              by_cases a2 : b!"apos;" <+: s
              · exact named b!"apos;" (by decide) (by decide) 39 a2 (by simp [expandN, hp.1, neg a1, pos a2])
                  (fun b2 => by simp [expandN, hp.1, up a1, pos b2])
              by_cases a3 : b!"quot;" <+: s
              · exact named b!"quot;" (by decide) (by decide) 34 a3 (by simp [expandN, hp.1, neg a1, neg a2, pos a3])
                  (fun b3 => by simp [expandN, hp.1, up a1, up a2, pos b3])
              by_cases a4 : b!"gt;" <+: s
              · exact named b!"gt;" (by decide) (by decide) 62 a4 (by simp [expandN, hp.1, neg a1, neg a2, neg a3, pos a4])
                  (fun b4 => by simp [expandN, hp.1, up a1, up a2, up a3, pos b4])
              by_cases a5 : b!"lt;" <+: s
              · exact named b!"lt;" (by decide) (by decide) 60 a5
                  (by simp [expandN, hp.1, neg a1, neg a2, neg a3, neg a4, pos a5])
                  (fun b5 => by simp [expandN, hp.1, up a1, up a2, up a3, up a4, pos b5])
              by_cases a6 : b!"#" <+: s
              · -- a character by its number
                rcases mark_prefix ht a6 with b6 | ⟨b6, b7⟩
                · simp only [expandN, hp.1, if_true, neg a1, neg a2, neg a3, neg a4, neg a5, pos a6, Bool.false_eq_true,
                    if_false] at h
                  simp only [expandN, hp.1, if_true, up a1, up a2, up a3, up a4, up a5, pos b6, Bool.false_eq_true, if_false]
                  -- what follows the digits
                  have tail : ∀ (base : Nat) (k : Nat), k ≤ t.length → k ≤ s.length →
                      (do let bytes ← codedChar (readCode base 0 (s.drop k)).1
                          match (readCode base 0 (s.drop k)).2 with
                          | 59 :: s'' => do
                            let (t, r) ← expandN p n s''
                            .ok (bytes ++ t, r)
                          | _ => .throws .parseError) = Res.ok (d, r) →
                      Soft (do let bytes ← codedChar (readCode base 0 (t.drop k)).1
                               match (readCode base 0 (t.drop k)).2 with
                               | 59 :: s'' => do
                                 let (t, r) ← expandN p n' s''
                                 .ok (bytes ++ t, r)
                               | _ => .throws .parseError) (38 :: s) (38 :: t) d r := by
                    intro base k hk1 hk2 h
                    generalize hc : readCode base 0 (s.drop k) = cr at h
                    obtain ⟨code, s1⟩ := cr
                    have nothing : (readCode base 0 (t.drop k)).2 = [] →
                      Soft (do let bytes ← codedChar (readCode base 0 (t.drop k)).1
                               match (readCode base 0 (t.drop k)).2 with
                               | 59 :: s'' => do
                                 let (t, r) ← expandN p n' s''
                                 .ok (bytes ++ t, r)
                               | _ => .throws .parseError) (38 :: s) (38 :: t) d r := by
                      intro h0
                      rw [h0]
                      refine .inl (.inr (.inl ?_))
                      generalize (readCode base 0 (t.drop k)).1 = code'
                      obtain ⟨b, hb⟩ | hb := codedChar_cases code'
                      · exact ⟨.parseError, by rw [hb]; rfl⟩
                      · exact ⟨.parseError, by rw [hb]; rfl⟩
                    rcases readCode_cut base (drop_prefix ht k) hc with h1 | ⟨r', h1, h2, h3⟩
                    · exact nothing h1
                    · rw [Res.bind_eq_ok] at h
                      obtain ⟨bytes, g1, g2⟩ := h
                      dsimp only at g1 g2
                      split at g2
                      · rename_i s2
                        obtain ⟨d1, g3, rfl⟩ := bind_ok_inv (f := fun u => bytes ++ u) g2
                        rcases prefix_cons_cases h1 with rfl | ⟨t2, rfl, ht2⟩
                        · exact nothing (by rw [h3])
                        · rw [h3]
                          dsimp only
                          rw [g1, Res.bind_ok]
                          refine (ih n' ht2 g3).bind (f := fun u => bytes ++ u) ?_
                          simp only [List.length_cons, List.length_drop] at h2 ⊢; omega
                      · cases g2
                  have hl1 := b6.length_le
                  have hl2 := a6.length_le
                  by_cases ax : b!"#x" <+: s
                  · rcases mark_prefix ht ax with bx | ⟨bx, bx'⟩
                    · rw [if_pos (pos ax)] at h
                      rw [if_pos (pos bx)]
                      exact tail 16 2 bx.length_le ax.length_le h
                    · have : t = b!"#" := by
                        obtain ⟨u, rfl⟩ := b6
                        have : u = [] := List.length_eq_zero_iff.1 (by simp at bx'; omega)
                        rw [this]; rfl
                      subst this
                      exact .inl (.inr (.inl ⟨.parseError, rfl⟩))
                  · rw [if_neg (by rw [neg ax]; simp)] at h
                    rw [if_neg (by rw [up ax]; simp)]
                    exact tail 10 1 hl1 hl2 h
                · rw [expandN_amp_none hp.1 n' (marks_short (by decide) b6 b7)]
                  have : t = [] := by simp at b7; exact b7
                  subst this
                  rcases expandN_nil (p := p) n' with h6 | h6
                  · exact .inl (.inl (by rw [h6]; rfl))
                  · exact .inr ⟨_, by rw [h6]; rfl⟩
              · have hn : ∀ m ∈ marks, ¬ m <+: s := by
                  intro m hm
                  simp only [marks, List.mem_cons, List.not_mem_nil, or_false] at hm
                  rcases hm with rfl | rfl | rfl | rfl | rfl | rfl <;> assumption
                rw [expandN_amp_none hp.1 n hn] at h
                rw [expandN_amp_none hp.1 n' (fun m hm h1 => hn m hm (h1.trans ht))]
                obtain ⟨d1, h3, rfl⟩ := bind_ok_inv (f := fun u => 38 :: u) h
                exact (ih n' ht h3).bind (f := fun u => 38 :: u) (by simp; omega)
            · rw [expandN_lit p n c s hc h38] at h
              rw [expandN_lit p n' c t hc h38]
              obtain ⟨d1, h3, rfl⟩ := bind_ok_inv (f := fun u => c :: u) h
              exact (ih n' ht h3).bind (f := fun u => c :: u) (by simp; omega)
          · simp only [expandN, hc] at h ⊢
            simp only [Bool.false_eq_true, if_false, Res.ok.injEq, Prod.mk.injEq] at h ⊢
            obtain ⟨rfl, rfl⟩ := h
            exact .inl (.inr (.inr ⟨c :: t, hs, by omega, by simp⟩))

theorem expand_cut {p : Byte → Bool} (hp : EntityOk p) {s s' d r : Str} (hs : s' <+: s) (h : expand p s = .ok (d, r)) :
    Soft (expand p s') s s' d r := expandN_cut hp _ _ hs h

theorem parseAttrsN_cut : ∀ (n n' : Nat) {s s' : Str} {as : List (Str × Str)} {r : Str}, s' <+: s →
    parseAttrsN n s = .ok (as, r) → Soft (parseAttrsN n' s') s s' as r := by
  intro n
  induction n with
  | zero => intro n' s s' as r _ h; simp [parseAttrsN] at h
  | succ n ih =>
    intro n' s s' as r hs h
    cases n' with
    | zero => exact .inl (.inl rfl)
    | succ n' =>
      rcases while_prefix isAttrChar hs with ⟨w1, w2⟩ | ⟨w1, w2, w3, w4⟩
      · -- the cut is inside the name
        by_cases he : s' = []
        · subst he
          exact .inr ⟨[], rfl⟩
        · refine .inl (.inr (.inl ⟨.parseError, ?_⟩))
          rw [parseAttrsN, if_neg (by rw [w1]; simpa using he), w2]
          rfl
      · by_cases he : (s.takeWhile isAttrChar).isEmpty = true
        · rw [parseAttrsN, if_pos he] at h
          rw [parseAttrsN, if_pos (by rw [w1]; exact he)]
          simp only [Res.ok.injEq, Prod.mk.injEq] at h
          obtain ⟨rfl, rfl⟩ := h
          exact .inl (.inr (.inr ⟨s', hs, by omega, rfl⟩))
        · rw [parseAttrsN, if_neg he] at h
          rw [parseAttrsN, if_neg (by rw [w1]; exact he), w1]
          generalize s.takeWhile isAttrChar = name at h ⊢
          generalize hs1 : s.dropWhile isAttrChar = s1 at *
          generalize hs1' : s'.dropWhile isAttrChar = s1' at *
          have dead : ∀ {α : Type} {x : Res (α × Str)} {s s' : Str} {a : α} {r : Str}, x = .throws .parseError →
              Soft x s s' a r := fun h => .inl (.inr (.inl ⟨_, h⟩))
          rcases while_prefix isSpace w2 with ⟨-, x2⟩ | ⟨-, x2, x3, x4⟩
          · exact dead (by rw [x2])
          · generalize s1.dropWhile isSpace = s2 at *
            generalize s1'.dropWhile isSpace = s2' at *
            split at h
            · rename_i s3
              rcases prefix_cons_cases x2 with rfl | ⟨s3', rfl, y2⟩
              · exact dead rfl
              · split
                case h_2 hne => exact absurd rfl (hne _)
                rename_i s3'' heq
                injection heq with _ heq
                subst heq
                rcases while_prefix isSpace y2 with ⟨-, z2⟩ | ⟨-, z2, z3, z4⟩
                · exact dead (by rw [z2])
                · generalize s3.dropWhile isSpace = s4 at *
                  generalize s3'.dropWhile isSpace = s4' at *
                  split at h
                  · rename_i q s5
                    rcases prefix_cons_cases z2 with rfl | ⟨s5', rfl, k2⟩
                    · exact dead rfl
                    · dsimp only
                      by_cases hq : q = 39 ∨ q = 34
                      · rw [if_pos hq] at h ⊢
                        rw [Res.bind_eq_ok] at h
                        obtain ⟨⟨v, s6⟩, g1, g2⟩ := h
                        dsimp only at g2
                        rcases expand_cut (entityOk_attr hq) k2 g1 with (e1 | ⟨e, e1⟩ | ⟨s6', e1, e2, e3⟩) | ⟨v', e1⟩
                        · exact .inl (.inl (by rw [e1]; rfl))
                        · exact .inl (.inr (.inl ⟨e, by rw [e1]; rfl⟩))
                        · rw [e3, Res.bind_ok]
                          dsimp only
                          split at g2
                          · rename_i q' s7
                            rcases prefix_cons_cases e1 with rfl | ⟨s7', rfl, m2⟩
                            · exact dead rfl
                            · dsimp only
                              by_cases hq' : q' = q
                              · rw [if_pos hq'] at g2 ⊢
                                obtain ⟨rest, m3, rfl⟩ := bind_ok_inv (f := fun u => (name, v) :: u) g2
                                rcases while_prefix isSpace m2 with ⟨-, o2⟩ | ⟨-, o2, o3, o4⟩
                                · rw [o2]
                                  cases n' with
                                  | zero => exact .inl (.inl rfl)
                                  | succ n' => exact .inr ⟨_, rfl⟩
                                · refine (ih n' o2 m3).bind (f := fun u => (name, v) :: u) ?_
                                  simp only [List.length_cons] at *
                                  omega
                              · rw [if_neg hq'] at g2; cases g2
                          · cases g2
                        · exact dead (by rw [e1]; rfl)
                      · rw [if_neg hq] at h; cases h
                  · cases h
            · cases h

theorem parseAttrs_cut {s s' : Str} {as : List (Str × Str)} {r : Str} (hs : s' <+: s) (h : parseAttrs s = .ok (as, r)) :
    Soft (parseAttrs s') s s' as r := parseAttrsN_cut _ _ hs h

theorem isDecl_prefix {t t' : Str} (h : t' <+: t) (hd : isDecl t' = true) : isDecl t = true := by
  obtain ⟨u, rfl⟩ := h
  match t', hd with
  | x :: m :: l :: sp :: v, hd => exact hd

/-- A prefix of a declaration that is not one has at most three characters, none of them a question mark. -/
theorem isDecl_short {t t' : Str} (h : t' <+: t) (hd : isDecl t = true) (hn : isDecl t' = false) : (63 : Byte) ∉ t' := by
  match t, hd with
  | x :: m :: l :: sp :: v, hd =>
    simp only [isDecl, Bool.and_eq_true, Bool.or_eq_true, beq_iff_eq] at hd
    obtain ⟨⟨⟨h1, h2⟩, h3⟩, h4⟩ := hd
    have c1 : x ≠ 63 := by rcases h1 with rfl | rfl <;> decide
    have c2 : m ≠ 63 := by rcases h2 with rfl | rfl <;> decide
    have c3 : l ≠ 63 := by rcases h3 with rfl | rfl <;> decide
    rcases prefix_cons_cases h with rfl | ⟨t1, rfl, k1⟩
    · simp
    rcases prefix_cons_cases k1 with rfl | ⟨t2, rfl, k2⟩
    · simp [c1.symm]
    rcases prefix_cons_cases k2 with rfl | ⟨t3, rfl, k3⟩
    · simp [c1.symm, c2.symm]
    rcases prefix_cons_cases k3 with rfl | ⟨t4, rfl, k4⟩
    · simp [c1.symm, c2.symm, c3.symm]
    · have : isDecl (x :: m :: l :: sp :: t4) = true := by
        simp only [isDecl, Bool.and_eq_true, Bool.or_eq_true, beq_iff_eq]
        exact ⟨⟨⟨h1, h2⟩, h3⟩, h4⟩
      rw [this] at hn
      cases hn

theorem isDoctype_prefix {t t' : Str} (h : t' <+: t) (hd : isDoctype t' = true) : isDoctype t = true := by
  unfold isDoctype at *
  rw [Bool.and_eq_true] at *
  refine ⟨List.isPrefixOf_iff_prefix.2 ((List.isPrefixOf_iff_prefix.1 hd.1).trans h), ?_⟩
  have h2 := hd.2
  have h3 := drop_prefix h 7
  generalize t'.drop 7 = a at *
  generalize t.drop 7 = b at *
  obtain ⟨u, rfl⟩ := h3
  cases a with
  | nil => simp at h2
  | cons c a => simpa using h2

theorem isDoctype_short {t t' : Str} (h : t' <+: t) (hd : isDoctype t = true) (hn : isDoctype t' = false) :
    t' <+: b!"DOCTYPE" := by
  unfold isDoctype at *
  rw [Bool.and_eq_true] at hd
  rcases mark_prefix h (List.isPrefixOf_iff_prefix.1 hd.1) with h1 | ⟨h1, -⟩
  · rw [List.isPrefixOf_iff_prefix.2 h1, Bool.true_and] at hn
    obtain ⟨u, rfl⟩ := h1
    obtain ⟨v, rfl⟩ := h
    cases u with
    | nil => simp
    | cons c u =>
      have := hd.2
      simp at this hn
      rw [this] at hn
      cases hn
  · exact h1

/-- `Hard` for the parser of contents. -/
def HardC (x : Res (Str × List Node × Str)) (s s' : Str) (v : Str) (cs : List Node) (r : Str) : Prop :=
  x = .diverges ∨ (∃ e, x = .throws e) ∨
    ∃ r', r' <+: r ∧ s'.length + r.length = s.length + r'.length ∧ x = .ok (v, cs, r')

theorem hard_of_skip {x : Res Str} {s s' r : Str}
    (h : x = .throws .parseError ∨ ∃ r', r' <+: r ∧ s'.length + r.length = s.length + r'.length ∧ x = .ok r') {s1 s1' : Str}
    (hl : s1.length + s'.length = s.length + s1'.length) :
    Hard (do let r ← x; .ok ((none : Option Node), r)) s1 s1' none r := by
  rcases h with h | ⟨r', h1, h2, h3⟩
  · exact .inr (.inl ⟨_, by rw [h]; rfl⟩)
  · exact .inr (.inr ⟨r', h1, by omega, by rw [h3]; rfl⟩)

theorem parseElement_nil (n : Nat) : parseElement n [] = .diverges ∨ parseElement n [] = .throws .parseError := by
  cases n with
  | zero => exact .inl (by simp [parseElement])
  | succ n => exact .inr (by simp [parseElement])

theorem parseNode_nil (n : Nat) : parseNode n [] = .diverges ∨ parseNode n [] = .throws .parseError := by
  cases n with
  | zero => exact .inl (by simp [parseNode])
  | succ n =>
    rw [parseNode]
    · exact parseElement_nil n
    · simp
    · simp

theorem parseContents_nil (n : Nat) (v : Str) (cs : List Node) {s : Str} (hs : s.dropWhile isSpace = []) :
    parseContents n v cs s = .diverges ∨ parseContents n v cs s = .throws .parseError := by
  cases n with
  | zero => exact .inl (by simp [parseContents])
  | succ n => exact .inr (by rw [parseContents, hs])

theorem parseContents_end (n : Nat) (v : Str) (cs : List Node) (s t : Str) (hs : s.dropWhile isSpace = 60 :: 47 :: t) :
    parseContents (n + 1) v cs s = (match (t.dropWhile isNameChar).dropWhile isSpace with
      | 62 :: r => .ok (v, cs, r)
      | _ => .throws .parseError) := by
  rw [parseContents, hs]
  rfl

theorem parse_cut : ∀ n : Nat,
    (∀ (n' : Nat) {s s' : Str} {nd : Option Node} {r : Str}, s' <+: s → parseNode n s = .ok (nd, r) →
      Hard (parseNode n' s') s s' nd r) ∧
    (∀ (n' : Nat) {s s' : Str} {nd : Option Node} {r : Str}, s' <+: s → parseElement n s = .ok (nd, r) →
      Hard (parseElement n' s') s s' nd r) ∧
    (∀ (n' : Nat) (v : Str) (cs : List Node) {s s' v2 : Str} {cs2 : List Node} {r : Str}, s' <+: s →
      parseContents n v cs s = .ok (v2, cs2, r) → HardC (parseContents n' v cs s') s s' v2 cs2 r) := by
  intro n
  induction n with
  | zero =>
    refine ⟨?_, ?_, ?_⟩
    · intro n' s s' nd r _ h; simp [parseNode] at h
    · intro n' s s' nd r _ h; simp [parseElement] at h
    · intro n' v cs s s' v2 cs2 r _ h; simp [parseContents] at h
  | succ n ih =>
    obtain ⟨ihN, ihE, ihC⟩ := ih
    refine ⟨?_, ?_, ?_⟩
    · intro n' s s' nd r hs h
      cases n' with
      | zero => exact .inl (by simp [parseNode])
      | succ n' =>
        by_cases he : s' = []
        · subst he
          rcases parseNode_nil (n' + 1) with h1 | h1
          · exact .inl h1
          · exact .inr (.inl ⟨_, h1⟩)
        cases s with
        | nil => exact absurd (List.prefix_nil.1 hs) he
        | cons c t =>
          rcases prefix_cons_cases hs with rfl | ⟨t', rfl, ht⟩
          · exact absurd rfl he
          by_cases c1 : c = 63
          · subst c1
            simp only [parseNode] at h ⊢
            rw [Res.bind_eq_ok] at h
            obtain ⟨r1, h1, h2⟩ := h
            simp only [Res.ok.injEq, Prod.mk.injEq] at h2
            obtain ⟨rfl, rfl⟩ := h2
            by_cases d : isDecl t = true
            · by_cases d' : isDecl t' = true
              · rw [if_pos d] at h1
                rw [if_pos d']
                refine hard_of_skip (skipTo_cut (drop_prefix ht 4) h1) ?_
                have l1 : 4 ≤ t'.length := by
                  match t', d' with
                  | _ :: _ :: _ :: _ :: _, _ => simp
                have := ht.length_le
                simp only [List.length_cons, List.length_drop]; omega
              · rw [if_neg d', skipTo_absent (x := 63) (by decide) (isDecl_short ht d (by simpa using d'))]
                exact .inr (.inl ⟨_, rfl⟩)
            · rw [if_neg d] at h1
              rw [if_neg (fun d' => d (isDecl_prefix ht d'))]
              exact hard_of_skip (skipTo_cut ht h1) (by simp; omega)
          by_cases c2 : c = 33
          · subst c2
            simp only [parseNode] at h ⊢
            have pos : ∀ {m u : Str}, m <+: u → m.isPrefixOf u = true := List.isPrefixOf_iff_prefix.2
            have neg : ∀ {m u : Str}, ¬ m <+: u → ¬ m.isPrefixOf u = true := fun {m u} h h1 =>
              h (List.isPrefixOf_iff_prefix.1 h1)
            have up : ∀ {m : Str}, ¬ m <+: t → ¬ m.isPrefixOf t' = true := fun {m} h => neg fun h1 => h (h1.trans ht)
            -- a start of a mark without `>`
            have short : ∀ m ∈ [b!"--", b!"[CDATA[", b!"DOCTYPE"], t' <+: m → ¬ b!"--" <+: t' → ¬ b!"[CDATA[" <+: t' →
                isDoctype t' = false →
                Hard (if b!"--".isPrefixOf t' = true then do
                  let r ← skipTo b!"-->" (t'.drop 2)
                  .ok (none, r)
                else if b!"[CDATA[".isPrefixOf t' = true then do
                  let (v, r) ← readCdata (t'.drop 7)
                  .ok (some (.mk .cdata [] v [] []), r)
                else if isDoctype t' = true then do
                  let r ← skipDoctype 0 (t'.drop 8)
                  .ok (none, r)
                else do
                  let r ← skipTo b!">" t'
                  .ok (none, r)) (33 :: t) (33 :: t') nd r := by
              intro m hm hp k1 k2 k3
              rw [if_neg (neg k1), if_neg (neg k2), if_neg (by rw [k3]; simp), skipTo_absent (x := 62) (by decide)]
              · exact .inr (.inl ⟨_, rfl⟩)
              · intro h62
                have := hp.subset h62
                simp only [List.mem_cons, List.not_mem_nil, or_false] at hm
                rcases hm with rfl | rfl | rfl <;> simp at this
            by_cases a1 : b!"--" <+: t
            · rw [if_pos (pos a1)] at h
              rcases mark_prefix ht a1 with b1 | ⟨b1, b1'⟩
              · rw [if_pos (pos b1)]
                rw [Res.bind_eq_ok] at h
                obtain ⟨r1, h1, h2⟩ := h
                simp only [Res.ok.injEq, Prod.mk.injEq] at h2
                obtain ⟨rfl, rfl⟩ := h2
                refine hard_of_skip (skipTo_cut (drop_prefix ht 2) h1) ?_
                have := b1.length_le
                have := a1.length_le
                simp only [List.length_cons, List.length_drop] at *; simp at *; omega
              · refine short b!"--" (by simp) b1 (fun h1 => ?_) (fun h1 => ?_) ?_
                · have := h1.length_le; omega
                · have := h1.length_le; simp at this b1'; omega
                · rw [Bool.eq_false_iff]
                  intro h1
                  have := isDoctype_prefix ht h1
                  unfold isDoctype at this
                  rw [Bool.and_eq_true] at this
                  obtain ⟨u, rfl⟩ := a1
                  simp at this
            rw [if_neg (neg a1)] at h
            by_cases a2 : b!"[CDATA[" <+: t
            · rw [if_pos (pos a2)] at h
              rcases mark_prefix ht a2 with b2 | ⟨b2, b2'⟩
              · rw [if_neg (up a1), if_pos (pos b2)]
                obtain ⟨v, h3, rfl⟩ := bind_ok_inv (f := fun v => some (Node.mk .cdata [] v [] [])) h
                refine (readCdata_cut (drop_prefix ht 7) h3).bind (f := fun v => some (Node.mk .cdata [] v [] [])) ?_
                have := b2.length_le
                have := a2.length_le
                simp only [List.length_cons, List.length_drop] at *; simp at *; omega
              · refine short b!"[CDATA[" (by simp) b2 (fun h1 => a1 (h1.trans ht)) (fun h1 => ?_) ?_
                · have := h1.length_le; omega
                · rw [Bool.eq_false_iff]
                  intro h1
                  have := isDoctype_prefix ht h1
                  unfold isDoctype at this
                  rw [Bool.and_eq_true] at this
                  obtain ⟨u, rfl⟩ := a2
                  simp at this
            rw [if_neg (neg a2)] at h
            by_cases a3 : isDoctype t = true
            · rw [if_pos a3] at h
              by_cases b3 : isDoctype t' = true
              · rw [if_neg (up a1), if_neg (up a2), if_pos b3]
                rw [Res.bind_eq_ok] at h
                obtain ⟨r1, h1, h2⟩ := h
                simp only [Res.ok.injEq, Prod.mk.injEq] at h2
                obtain ⟨rfl, rfl⟩ := h2
                refine hard_of_skip (skipDoctype_cut (drop_prefix ht 8) h1) ?_
                have l1 : 8 ≤ t'.length := by
                  unfold isDoctype at b3
                  rw [Bool.and_eq_true] at b3
                  refine Classical.byContradiction fun hl => ?_
                  rw [List.drop_eq_nil_of_le (by omega)] at b3
                  simp at b3
                have := ht.length_le
                simp only [List.length_cons, List.length_drop]; omega
              · exact short b!"DOCTYPE" (by simp) (isDoctype_short ht a3 (by simpa using b3)) (fun h1 => a1 (h1.trans ht))
                  (fun h1 => a2 (h1.trans ht)) (by simpa using b3)
            · rw [if_neg a3] at h
              rw [if_neg (up a1), if_neg (up a2), if_neg (fun h1 => a3 (isDoctype_prefix ht h1))]
              rw [Res.bind_eq_ok] at h
              obtain ⟨r1, h1, h2⟩ := h
              simp only [Res.ok.injEq, Prod.mk.injEq] at h2
              obtain ⟨rfl, rfl⟩ := h2
              exact hard_of_skip (skipTo_cut ht h1) (by simp; omega)
          · rw [parseNode_element n c t c1 c2] at h
            rw [parseNode_element n' c t' c1 c2]
            exact ihE n' hs h
    · intro n' s s' nd r hs h
      cases n' with
      | zero => exact .inl (by simp [parseElement])
      | succ n' =>
        simp only [parseElement] at h ⊢
        have dead : ∀ {x : Res (Option Node × Str)}, x = .throws .parseError → Hard x s s' nd r := fun h => .inr (.inl ⟨_, h⟩)
        by_cases he : (s.takeWhile isNameChar).isEmpty = true
        · rw [if_pos he] at h; cases h
        rw [if_neg he] at h
        rcases while_prefix isNameChar hs with ⟨w1, w2⟩ | ⟨w1, w2, w3, w4⟩
        · apply dead
          rw [w2]
          split
          · rfl
          · rfl
        · rw [if_neg (by rw [w1]; exact he), w1]
          generalize s.takeWhile isNameChar = name at *
          generalize s.dropWhile isNameChar = s1 at *
          generalize s'.dropWhile isNameChar = s1' at *
          rcases while_prefix isSpace w2 with ⟨-, x2⟩ | ⟨-, x2, x3, x4⟩
          · exact dead (by rw [x2]; rfl)
          · generalize s1.dropWhile isSpace = s2 at *
            generalize s1'.dropWhile isSpace = s2' at *
            rw [Res.bind_eq_ok] at h
            obtain ⟨⟨attrs, s3⟩, h1, h2⟩ := h
            dsimp only at h2
            rcases parseAttrs_cut x2 h1 with (e1 | ⟨e, e1⟩ | ⟨s3', e1, e2, e3⟩) | ⟨v', e1⟩
            · exact .inl (by rw [e1]; rfl)
            · exact .inr (.inl ⟨e, by rw [e1]; rfl⟩)
            · rw [e3, Res.bind_ok]
              dsimp only
              split at h2
              · rename_i s4
                rcases prefix_cons_cases e1 with rfl | ⟨s4', rfl, y2⟩
                · exact dead rfl
                · rw [Res.bind_eq_ok] at h2
                  obtain ⟨⟨v, cs, r1⟩, g1, g2⟩ := h2
                  simp only [Res.ok.injEq, Prod.mk.injEq] at g2
                  obtain ⟨rfl, rfl⟩ := g2
                  rcases ihC n' [] [] y2 g1 with k1 | ⟨e, k1⟩ | ⟨r', k1, k2, k3⟩
                  · exact .inl (by simp only [k1]; rfl)
                  · exact .inr (.inl ⟨e, by simp only [k1]; rfl⟩)
                  · refine .inr (.inr ⟨r', k1, ?_, by simp only [k3]; rfl⟩)
                    simp only [List.length_cons] at *
                    omega
              · rename_i s4
                simp only [Res.ok.injEq, Prod.mk.injEq] at h2
                obtain ⟨rfl, rfl⟩ := h2
                rcases prefix_cons_cases e1 with rfl | ⟨s4', rfl, y2⟩
                · exact dead rfl
                rcases prefix_cons_cases y2 with rfl | ⟨s5', rfl, z2⟩
                · exact dead rfl
                · refine .inr (.inr ⟨s5', z2, ?_, rfl⟩)
                  simp only [List.length_cons] at *
                  omega
              · cases h2
            · exact dead (by rw [e1]; rfl)
    · intro n' v cs s s' v2 cs2 r hs h
      cases n' with
      | zero => exact .inl (by simp [parseContents])
      | succ n' =>
        rcases while_prefix isSpace hs with ⟨-, w2⟩ | ⟨-, w2, w3, w4⟩
        · rcases parseContents_nil (n' + 1) v cs w2 with h1 | h1
          · exact .inl h1
          · exact .inr (.inl ⟨_, h1⟩)
        generalize hd : s.dropWhile isSpace = s1 at *
        generalize hd' : s'.dropWhile isSpace = s1' at *
        cases s1 with
        | nil => exact absurd (List.prefix_nil.1 w2) w3
        | cons c t =>
          rcases prefix_cons_cases w2 with rfl | ⟨t', rfl, ht⟩
          · exact absurd rfl w3
          by_cases c1 : c = 60
          · subst c1
            -- a node starts
            have node : (∀ x ∈ t.head?, x ≠ 47) → HardC (parseContents (n' + 1) v cs s') s s' v2 cs2 r := by
              intro hx
              have hx' : ∀ x ∈ t'.head?, x ≠ 47 := by
                obtain ⟨u, rfl⟩ := ht
                cases t' with
                | nil => simp
                | cons y t' => simpa using hx
              have e1 : parseContents (n + 1) v cs s = (do
                  let (nd, r) ← parseNode n t
                  parseContents n v (cs ++ nd.toList) r) := by
                rw [parseContents, hd]
                cases t with
                | nil => rfl
                | cons y t =>
                  have : y ≠ 47 := hx y (by simp)
                  split <;> simp_all
              have e2 : parseContents (n' + 1) v cs s' = (do
                  let (nd, r) ← parseNode n' t'
                  parseContents n' v (cs ++ nd.toList) r) := by
                rw [parseContents, hd']
                cases t' with
                | nil => rfl
                | cons y t' =>
                  have : y ≠ 47 := hx' y (by simp)
                  split <;> simp_all
              rw [e1, Res.bind_eq_ok] at h
              obtain ⟨⟨nd, r1⟩, g1, g2⟩ := h
              rw [e2]
              rcases ihN n' ht g1 with k1 | ⟨e, k1⟩ | ⟨r1', k1, k2, k3⟩
              · exact .inl (by rw [k1]; rfl)
              · exact .inr (.inl ⟨e, by rw [k1]; rfl⟩)
              · rw [k3, Res.bind_ok]
                dsimp only at g2 ⊢
                rcases ihC n' v (cs ++ nd.toList) k1 g2 with m1 | ⟨e, m1⟩ | ⟨r2, m1, m2, m3⟩
                · exact .inl m1
                · exact .inr (.inl ⟨e, m1⟩)
                · refine .inr (.inr ⟨r2, m1, ?_, m3⟩)
                  simp only [List.length_cons] at *
                  omega
            cases t with
            | nil => exact node (by simp)
            | cons y t =>
              by_cases c2 : y = 47
              · subst c2
                rw [parseContents_end n v cs s t hd] at h
                rcases prefix_cons_cases ht with rfl | ⟨t2, rfl, ht2⟩
                · rw [parseContents_node n' v cs s' [] hd' (by simp)]
                  rcases parseNode_nil n' with k | k
                  · exact .inl (by rw [k]; rfl)
                  · exact .inr (.inl ⟨_, by rw [k]; rfl⟩)
                · rw [parseContents_end n' v cs s' t2 hd']
                  rcases while_prefix isNameChar ht2 with ⟨-, x2⟩ | ⟨-, x2, x3, x4⟩
                  · exact .inr (.inl ⟨.parseError, by rw [x2]; rfl⟩)
                  generalize t.dropWhile isNameChar = s2 at *
                  generalize t2.dropWhile isNameChar = s2' at *
                  rcases while_prefix isSpace x2 with ⟨-, y2⟩ | ⟨-, y2, y3, y4⟩
                  · exact .inr (.inl ⟨.parseError, by rw [y2]⟩)
                  generalize s2.dropWhile isSpace = s3 at *
                  generalize s2'.dropWhile isSpace = s3' at *
                  split at h
                  · rename_i r1
                    simp only [Res.ok.injEq, Prod.mk.injEq] at h
                    obtain ⟨rfl, rfl, rfl⟩ := h
                    rcases prefix_cons_cases y2 with rfl | ⟨s4', rfl, z2⟩
                    · exact absurd rfl y3
                    · refine .inr (.inr ⟨s4', z2, ?_, rfl⟩)
                      simp only [List.length_cons] at *
                      omega
                  · cases h
              · exact node (by simpa using c2)
          · rw [parseContents_data n v cs s t c hd c1, Res.bind_eq_ok] at h
            obtain ⟨⟨d, r1⟩, g1, g2⟩ := h
            rw [parseContents_data n' v cs s' t' c hd' c1]
            rcases expand_cut entityOk_text hs g1 with (e1 | ⟨e, e1⟩ | ⟨r1', e1, e2, e3⟩) | ⟨d', e1⟩
            · exact .inl (by rw [e1]; rfl)
            · exact .inr (.inl ⟨e, by rw [e1]; rfl⟩)
            · rw [e3, Res.bind_ok]
              dsimp only at g2 ⊢
              rcases ihC n' _ _ e1 g2 with m1 | ⟨e, m1⟩ | ⟨r2, m1, m2, m3⟩
              · exact .inl m1
              · exact .inr (.inl ⟨e, m1⟩)
              · exact .inr (.inr ⟨r2, m1, by omega, m3⟩)
            · rw [e1, Res.bind_ok]
              dsimp only
              rcases parseContents_nil n' (if (cstr v).isEmpty then d' else v) (cs ++ [.mk .data [] d' [] []]) (s := []) rfl with k | k
              · exact .inl k
              · exact .inr (.inl ⟨_, k⟩)

/-- The nodes of a prefix of a document are the first nodes of the document. -/
theorem parseDocN_cut : ∀ (n n' : Nat) {s s' : Str} {ns : List Node}, s' <+: s → parseDocN n s = .ok ns →
    parseDocN n' s' = .diverges ∨ (∃ e, parseDocN n' s' = .throws e) ∨ ∃ ns', ns' <+: ns ∧ parseDocN n' s' = .ok ns' := by
  intro n
  induction n with
  | zero => intro n' s s' ns _ h; simp [parseDocN] at h
  | succ n ih =>
    intro n' s s' ns hs h
    cases n' with
    | zero => exact .inl rfl
    | succ n' =>
      rw [parseDocN] at h ⊢
      rcases while_prefix isSpace hs with ⟨-, w2⟩ | ⟨-, w2, w3, w4⟩
      · exact .inr (.inr ⟨[], List.nil_prefix, by rw [w2]⟩)
      generalize s.dropWhile isSpace = s1 at *
      generalize s'.dropWhile isSpace = s1' at *
      split at h
      · exact absurd (List.prefix_nil.1 w2) w3
      · rename_i t
        rcases prefix_cons_cases w2 with rfl | ⟨t', rfl, ht⟩
        · exact absurd rfl w3
        split
        · rename_i heq; cases heq
        · rename_i t'' heq
          injection heq with _ heq
          subst heq
          rw [Res.bind_eq_ok] at h
          obtain ⟨⟨nd, r⟩, g1, g2⟩ := h
          rw [Res.bind_eq_ok] at g2
          obtain ⟨rest, g2, g3⟩ := g2
          cases g3
          rcases (parse_cut _).1 (2 * t'.length + 2) ht g1 with k1 | ⟨e, k1⟩ | ⟨r', k1, k2, k3⟩
          · exact .inl (by rw [k1]; rfl)
          · exact .inr (.inl ⟨e, by rw [k1]; rfl⟩)
          · rw [k3, Res.bind_ok]
            dsimp only
            rcases ih n' k1 g2 with m1 | ⟨e, m1⟩ | ⟨ns', m1, m2⟩
            · exact .inl (by rw [m1]; rfl)
            · exact .inr (.inl ⟨e, by rw [m1]; rfl⟩)
            · exact .inr (.inr ⟨nd.toList ++ ns', (List.prefix_append_right_inj _).2 m1, by rw [m2]; rfl⟩)
        · rename_i h3; exact absurd rfl (h3 _)
      · cases h

theorem takeWhile_prefix_mono (p : Byte → Bool) : ∀ {s s' : Str}, s' <+: s → s'.takeWhile p <+: s.takeWhile p := by
  intro s
  induction s with
  | nil => intro s' h; rw [List.prefix_nil.1 h]; exact List.prefix_rfl
  | cons c s ih =>
    intro s' h
    rcases prefix_cons_cases h with rfl | ⟨t, rfl, ht⟩
    · exact List.nil_prefix
    · simp only [List.takeWhile_cons]
      split
      · exact List.cons_prefix_cons.2 ⟨rfl, ih ht⟩
      · exact List.prefix_rfl

theorem cstr_prefix {s s' : Str} (h : s' <+: s) : cstr s' <+: cstr s := takeWhile_prefix_mono _ h

/-- The nodes of a prefix of a text are the first nodes of the text. -/
theorem parseDoc_cut {s s' : Str} {ns : List Node} (hs : s' <+: s) (h : parseDoc s = .ok ns) :
    parseDoc s' = .diverges ∨ (∃ e, parseDoc s' = .throws e) ∨ ∃ ns', ns' <+: ns ∧ parseDoc s' = .ok ns' := by
  unfold parseDoc at *
  have hc := cstr_prefix hs
  generalize cstr s = t at *
  generalize cstr s' = t' at *
  have pos : ∀ {m u : Str}, m <+: u → m.isPrefixOf u = true := List.isPrefixOf_iff_prefix.2
  unfold skipBom at *
  by_cases hb : [0xEF, 0xBB, 0xBF] <+: t
  · rw [if_pos (pos hb)] at h
    rcases mark_prefix hc hb with b1 | ⟨b1, b2⟩
    · rw [if_pos (pos b1)]
      exact parseDocN_cut _ _ (drop_prefix hc 3) h
    · rw [if_neg]
      · cases t' with
        | nil => exact .inr (.inr ⟨[], List.nil_prefix, rfl⟩)
        | cons c t' =>
          rw [List.cons_prefix_cons] at b1
          rw [b1.1]
          exact .inr (.inl ⟨.parseError, rfl⟩)
      · intro h1
        have := (List.isPrefixOf_iff_prefix.1 h1).length_le
        omega
  · rw [if_neg (fun h1 => hb (List.isPrefixOf_iff_prefix.1 h1))] at h
    rw [if_neg (fun h1 => hb ((List.isPrefixOf_iff_prefix.1 h1).trans hc))]
    exact parseDocN_cut _ _ hc h

/-- A prefix of a text that is accepted is rejected, or empty, or gives the same tree. -/
theorem parseXml_cut {s s' : Str} {n : PN} (hs : s' <+: s) (h : parseXml s = .ok n) :
    parseXml s' = .diverges ∨ parseXml s' = .throws .stdException ∨ parseXml s' = .ok PN.nil ∨ parseXml s' = .ok n := by
  unfold parseXml at h ⊢
  cases hd : parseDoc s with
  | throws e => rw [hd] at h; cases h
  | ub => rw [hd] at h; cases h
  | diverges => rw [hd] at h; cases h
  | ok ns =>
    rw [hd] at h
    rcases parseDoc_cut hs hd with k | ⟨e, k⟩ | ⟨ns', k1, k2⟩
    · exact .inl (by rw [k])
    · exact .inr (.inl (by rw [k]))
    · rw [k2]
      cases ns' with
      | nil => exact .inr (.inr (.inl rfl))
      | cons x ns' =>
        cases ns with
        | nil => exact absurd k1 (by simp)
        | cons y ns =>
          rw [List.cons_prefix_cons] at k1
          rw [k1.1]
          exact .inr (.inr (.inr h))

/-- A proper, non-empty prefix of the text of one node is rejected. -/
theorem parseXml_inside {t t' r : Str} {nd : Option Node} (hz : ∀ c ∈ t, c ≠ 0) {k : Nat} (h : parseNode k t = .ok (nd, r)) (ht : t' <+: t)
    (hl : t'.length + r.length < t.length) :
    parseXml (60 :: t') = .diverges ∨ parseXml (60 :: t') = .throws .stdException := by
  have hz' : cstr (60 :: t') = 60 :: t' := cstr_eq_self (by
    intro c hc
    rcases List.mem_cons.1 hc with rfl | hc
    · decide
    · exact hz c (ht.subset hc))
  have hb : skipBom (60 :: t') = 60 :: t' := by
    rw [skipBom, if_neg (by simp)]
  have hd : parseDoc (60 :: t') = (do
      let (nd, r) ← parseNode (2 * t'.length + 2) t'
      let rest ← parseDocN t'.length.succ r
      .ok (nd.toList ++ rest)) := by
    rw [parseDoc, hz', hb, List.length_cons, parseDocN]
    rfl
  unfold parseXml
  rw [hd]
  rcases (parse_cut k).1 (2 * t'.length + 2) ht h with k1 | ⟨e, k1⟩ | ⟨r', k1, k2, k3⟩
  · exact .inl (by rw [k1]; rfl)
  · exact .inr (by rw [k1]; rfl)
  · exact absurd k2 (by omega)

end Flut.Xml
