import Verif.Model.CallDepth
import Verif.Spec.CallDepth
import Verif.Proofs.PropDoc
import Verif.Proofs.XmlTotal
import Verif.Proofs.Numbers

namespace Flut

open Spec CharStream

/-- `F` needs room for `h` calls: with it, it does `r`, and without it overflows. -/
def NeedsRoom {α : Type} (h : Nat) (F : Nat → Lim α) (r : Res α) : Prop :=
  ∀ d, F d = if h ≤ d then .done r else .overflow

theorem needsRoom_done {α : Type} (r : Res α) : NeedsRoom 0 (fun _ => .done r) r := by
  intro d; simp

theorem needsRoom_bind {α β : Type} {h : Nat} {F : Nat → Lim α} {r : Res α} (hF : NeedsRoom h F r) {G : α → Nat → Lim β}
    {g : α → Res β} {k : Nat} (hG : ∀ a, r = .ok a → NeedsRoom k (G a) (g a)) (hk : (∀ a, r ≠ .ok a) → k ≤ h) :
    NeedsRoom (max h k) (fun d => F d >>= fun a => G a d) (r >>= g) := by
  intro d
  change Lim.bind (F d) _ = _
  rw [hF d]
  cases r with
  | ok a =>
    have := hG a rfl d
    by_cases h1 : h ≤ d
    · simp only [if_pos h1, Lim.bind, this, Res.bind_ok]
      by_cases h2 : k ≤ d
      · rw [if_pos h2, if_pos (by omega)]
      · rw [if_neg h2, if_neg (by omega)]
    · simp only [if_neg h1, Lim.bind]
      rw [if_neg (by omega)]
  | throws e =>
    have := hk (by simp)
    rw [Nat.max_eq_left this]
    split <;> rfl
  | ub =>
    have := hk (by simp)
    rw [Nat.max_eq_left this]
    split <;> rfl
  | diverges =>
    have := hk (by simp)
    rw [Nat.max_eq_left this]
    split <;> rfl

/-- What is needed is at most `b`, and `e a` if the result is `a`. -/
def Room {α : Type} (b : Nat) (e : α → Nat) (F : Nat → Lim α) (r : Res α) : Prop :=
  ∃ h, NeedsRoom h F r ∧ h ≤ b ∧ ∀ a, r = .ok a → h = e a

theorem room_done {α : Type} (b : Nat) (e : α → Nat) (r : Res α) (he : ∀ a, r = .ok a → e a = 0) :
    Room b e (fun _ => .done r) r :=
  ⟨0, needsRoom_done r, Nat.zero_le _, fun a h => (he a h).symm⟩

theorem room_bind {α β : Type} {b : Nat} {e : α → Nat} {F : Nat → Lim α} {r : Res α} (hF : Room b e F r) {e' : β → Nat}
    {G : α → Nat → Lim β} {g : α → Res β} (f : α → β → Nat) (hG : ∀ a, r = .ok a → Room b (f a) (G a) (g a))
    (he : ∀ a, r = .ok a → ∀ c, g a = .ok c → e' c = max (e a) (f a c)) :
    Room b e' (fun d => F d >>= fun a => G a d) (r >>= g) := by
  obtain ⟨h, h1, h2, h3⟩ := hF
  cases r with
  | ok a =>
    obtain ⟨k, k1, k2, k3⟩ := hG a rfl
    refine ⟨max h k, needsRoom_bind h1 (k := k) (fun a' ha => by cases ha; exact k1) (fun hn => absurd rfl (hn a)), by omega, ?_⟩
    intro c hc
    rw [h3 a rfl, k3 c hc, he a rfl c hc]
  | throws x => exact ⟨max h 0, needsRoom_bind h1 (k := 0) (fun _ h => by simp at h) (fun _ => Nat.zero_le _), by omega,
      fun c hc => by simp at hc⟩
  | ub => exact ⟨max h 0, needsRoom_bind h1 (k := 0) (fun _ h => by simp at h) (fun _ => Nat.zero_le _), by omega,
      fun c hc => by simp at hc⟩
  | diverges => exact ⟨max h 0, needsRoom_bind h1 (k := 0) (fun _ h => by simp at h) (fun _ => Nat.zero_le _), by omega,
      fun c hc => by simp at hc⟩

/-- A first step that needs no room. -/
theorem room_step {α β : Type} {b : Nat} {r : Res α} {e : β → Nat} {G : α → Nat → Lim β} {g : α → Res β}
    (hG : ∀ a, r = .ok a → Room b e (G a) (g a)) : Room b e (fun d => Lim.done r >>= fun a => G a d) (r >>= g) :=
  room_bind (room_done b (fun _ => 0) r (fun _ _ => rfl)) (fun _ => e) hG (fun a _ c _ => by simp)

/-- A last step that needs no room. -/
theorem room_map {α β : Type} {b : Nat} {e : α → Nat} {F : Nat → Lim α} {r : Res α} (hF : Room b e F r) {e' : β → Nat}
    (g : α → β) (he : ∀ a, r = .ok a → e' (g a) = e a) :
    Room b e' (fun d => F d >>= fun a => .done (.ok (g a))) (r >>= fun a => .ok (g a)) :=
  room_bind hF (fun _ _ => 0) (fun a _ => room_done b _ (.ok (g a)) (fun _ _ => rfl)) (fun a ha c hc => by
    cases hc; rw [he a ha]; omega)

theorem room_last {α β : Type} {b : Nat} {e : β → Nat} {r : Res α} {g : α → β} (he : ∀ a, e (g a) = 0) :
    Room b e (fun _ => Lim.done r >>= fun a => .done (.ok (g a))) (r >>= fun a => .ok (g a)) :=
  room_step (G := fun a _ => .done (.ok (g a))) (fun a _ => room_done _ _ _ (fun c hc => by cases hc; exact he a))

/-- One more call. -/
theorem room_call {α : Type} {b : Nat} {e : α → Nat} {F G : Nat → Lim α} {r : Res α} (hF : Room b e F r)
    (h0 : G 0 = .overflow) (hs : ∀ d, G (d + 1) = F d) : Room (b + 1) (fun a => e a + 1) G r := by
  obtain ⟨h, h1, h2, h3⟩ := hF
  refine ⟨h + 1, ?_, by omega, fun a ha => by rw [h3 a ha]⟩
  intro d
  cases d with
  | zero => rw [h0, if_neg (by omega)]
  | succ d =>
    rw [hs, h1 d]
    by_cases hd : h ≤ d
    · rw [if_pos hd, if_pos (by omega)]
    · rw [if_neg hd, if_neg (by omega)]

theorem Room.mono {α : Type} {b b' : Nat} {e : α → Nat} {F : Nat → Lim α} {r : Res α} (h : Room b e F r) (hb : b ≤ b') :
    Room b' e F r := by
  obtain ⟨k, h1, h2, h3⟩ := h
  exact ⟨k, h1, by omega, h3⟩

/-! ## The prop format -/

theorem getToken_length {s s' : CharStream} {t : Str} (h : s.getToken propOperators propQuotes = .ok (t, s')) :
    t.length + s'.rest.length ≤ s.rest.length := by
  have hsk : ∀ x : CharStream, x.skipDelims.rest.length ≤ x.rest.length := by
    intro x
    obtain ⟨v, hv⟩ := (skipDelims_spec x).1.1
    have := congrArg List.length hv
    simp at this; omega
  unfold getToken getTokenN at h
  split at h
  · obtain ⟨x, hx, h⟩ := Res.bind_eq_ok.1 h
    have h1 := tokenLoop_length _ _ _ _ _ _ _ _ hx
    simp only [Res.ok.injEq, Prod.mk.injEq] at h
    rw [← h.1, ← h.2]
    have := hsk { s with rest := x.2 }
    simp at this h1 ⊢; omega
  · simp only [Res.ok.injEq, Prod.mk.injEq] at h
    rw [← h.1, ← h.2]
    simpa using hsk s

theorem getLine_length (s : CharStream) : s.getLine.2.rest.length ≤ s.rest.length := by
  have key : ∀ k, (s.processEnd k).rest.length ≤ s.rest.length := by
    intro k
    simp only [processEnd]
    split
    · simp
    · obtain ⟨v, hv⟩ := (skipDelims_spec { s with rest := s.rest.drop k }).1.1
      have := congrArg List.length hv
      simp at this ⊢; omega
  exact key _

theorem getPropToken_length {s s' : CharStream} {t : Str} (h : getPropToken s = .ok (t, s')) :
    t.length + s'.rest.length ≤ s.rest.length := by
  unfold getPropToken at h
  generalize s.rest.length + 1 = n at h
  induction n generalizing s with
  | zero => simp [getPropTokenN] at h
  | succ n ih =>
    unfold getPropTokenN at h
    obtain ⟨x, hx, h⟩ := Res.bind_eq_ok.1 h
    have h1 := getToken_length hx
    dsimp only at h
    split at h
    · have := ih h
      have := getLine_length x.2
      omega
    · obtain ⟨r, hr, h⟩ := Res.bind_eq_ok.1 h
      obtain ⟨r', hr', -, hl⟩ := trimStr_total x.1
      rw [hr] at hr'
      simp only [Res.ok.injEq, Prod.mk.injEq] at h hr'
      rw [← h.1, ← h.2, hr']
      omega

theorem valid_ne_nil {t : Str} (h : isValidLabel t = .ok true) : 1 ≤ t.length := by
  cases t with
  | nil => simp [isValidLabel] at h
  | cons c cs => simp

theorem read_length (n : Nat) : (∀ (s : CharStream) nd s', readNode n s = .ok (nd, s') → s'.rest.length ≤ s.rest.length) ∧
    ∀ (s : CharStream) t cs s', readChildren n s t = .ok (cs, s') → s'.rest.length ≤ s.rest.length := by
  induction n with
  | zero => constructor <;> intros <;> simp_all [readNode, readChildren]
  | succ n ih =>
    constructor
    · intro s nd s' h
      unfold readNode at h
      obtain ⟨x, hx, h⟩ := Res.bind_eq_ok.1 h
      have h1 := getPropToken_length hx
      dsimp only at h
      split at h
      · obtain ⟨y, hy, h⟩ := Res.bind_eq_ok.1 h
        have h2 := getPropToken_length hy
        simp only [Res.ok.injEq, Prod.mk.injEq] at h
        rw [← h.2]; omega
      · split at h
        · obtain ⟨y, hy, h⟩ := Res.bind_eq_ok.1 h
          have h2 := ih.2 _ _ _ _ hy
          simp only [Res.ok.injEq, Prod.mk.injEq] at h
          rw [← h.2]; omega
        · simp only [Res.ok.injEq, Prod.mk.injEq] at h
          rw [← h.2]; omega
    · intro s t cs s' h
      unfold readChildren at h
      split at h
      · obtain ⟨x, hx, h⟩ := Res.bind_eq_ok.1 h
        have h1 := getPropToken_length hx
        obtain ⟨b, hb, h⟩ := Res.bind_eq_ok.1 h
        dsimp only at h
        split at h
        · obtain ⟨y, hy, h⟩ := Res.bind_eq_ok.1 h
          have h2 := ih.1 _ _ _ hy
          obtain ⟨z, hz, h⟩ := Res.bind_eq_ok.1 h
          have h3 := ih.2 _ _ _ _ hz
          simp only [Res.ok.injEq, Prod.mk.injEq] at h
          rw [← h.2]; omega
        · split at h
          · simp at h
          · have h3 := ih.2 _ _ _ _ h
            omega
      · simp only [Res.ok.injEq, Prod.mk.injEq] at h
        rw [← h.2]; omega

theorem room_read (n : Nat) :
    (∀ s : CharStream, Room (s.rest.length / 2 + 1) (fun a => height a.1 + 1) (fun d => readNodeLim n d s) (readNode n s)) ∧
    ∀ (s : CharStream) (t : Str),
      Room ((s.rest.length + 1) / 2) (fun a => heightBelow a.1) (fun d => readChildrenLim n d s t) (readChildren n s t) := by
  induction n with
  | zero =>
    exact ⟨fun s => room_done _ _ _ (fun a ha => by simp at ha), fun s t => room_done _ _ _ (fun a ha => by simp at ha)⟩
  | succ n ih =>
    constructor
    · intro s
      refine room_call (F := fun d => readNodeLim (n + 1) (d + 1) s) ?_ rfl (fun d => rfl)
      rw [readNode]
      simp only [readNodeLim]
      refine room_step ?_
      rintro ⟨t1, s1⟩ hx
      have h1 := getPropToken_length hx
      dsimp only
      split
      · exact room_step (fun y _ => room_done _ _ _ (fun a ha => by cases ha; rfl))
      · split
        · rename_i ht
          rw [ht] at h1
          simp at h1
          exact room_map ((ih.2 s1 t1).mono (by omega)) (fun z => (PN.mk false [] z.1, z.2)) (fun z _ => rfl)
        · exact room_done _ _ _ (fun a ha => by cases ha; rfl)
    · intro s t
      simp only [readChildrenLim, readChildren]
      split
      · refine room_step ?_
        rintro ⟨t1, s1⟩ hx
        have h1 := getPropToken_length hx
        refine room_step (fun b hb => ?_)
        dsimp only
        split
        · rename_i hv
          subst hv
          have h2 : 1 ≤ t1.length := valid_ne_nil hb
          refine room_bind ((ih.1 s1).mono (by omega)) (fun _ a => heightBelow (a.1.drop 1)) ?_ ?_
          · rintro ⟨nd, s2⟩ hy
            have h3 := (read_length _).1 _ _ _ hy
            exact room_map ((ih.2 s2 t1).mono (by omega)) (fun z => ((t1, nd) :: z.1, z.2)) (fun z _ => rfl)
          · intro y hy c hc
            obtain ⟨z, -, hz⟩ := Res.bind_eq_ok.1 hc
            cases hz
            rfl
        · split
          · exact room_done _ _ _ (fun a ha => by simp at ha)
          · exact (ih.2 s1 t1).mono (by omega)
      · exact room_done _ _ _ (fun a ha => by cases ha; rfl)

theorem room_parseLoop (n : Nat) : ∀ (s : CharStream) (t : Str) (b : Nat),
    (isValidLabel t = .ok true → s.rest.length / 2 + 1 ≤ b) → s.rest.length / 2 ≤ b →
    Room b heightBelow (fun d => parseLoopLim d n s t) (parseLoop n s t) := by
  induction n with
  | zero => intro s t b _ _; exact room_done _ _ _ (fun a ha => by simp at ha)
  | succ n ih =>
    intro s t b h1 h2
    simp only [parseLoopLim, parseLoop]
    refine room_step (fun v hv => ?_)
    split
    · rename_i hv'
      subst hv'
      refine room_bind (((room_read _).1 s).mono (h1 hv)) (fun _ a => heightBelow (a.drop 1)) ?_ ?_
      · rintro ⟨nd, s1⟩ hy
        have h3 := (read_length _).1 _ _ _ hy
        refine room_step ?_
        rintro ⟨t', s2⟩ hx
        have h4 : t'.length + s2.rest.length ≤ s1.rest.length := getPropToken_length hx
        have h5 := h1 hv
        exact room_map (ih s2 t' b (fun _ => by omega) (by omega)) (fun z => (t, nd) :: z) (fun z _ => rfl)
      · intro y hy c hc
        obtain ⟨x, -, hc⟩ := Res.bind_eq_ok.1 hc
        obtain ⟨z, -, hz⟩ := Res.bind_eq_ok.1 hc
        cases hz
        rfl
    · exact room_done _ _ _ (fun a ha => by cases ha; rfl)

theorem room_parseStream (s : CharStream) :
    Room ((s.rest.length + 1) / 2) height (fun d => parseStreamLim d s) (parseStream s) := by
  simp only [parseStreamLim, parseStream]
  refine room_step ?_
  rintro ⟨t, s1⟩ hx
  have h1 := getPropToken_length hx
  exact room_map (room_parseLoop _ s1 t _ (fun hv => by have := valid_ne_nil hv; omega) (by omega)) (fun z => PN.mk false [] z)
    (fun z _ => rfl)

theorem room_parseProp (text : Str) :
    Room ((text.length + 1) / 2) height (fun d => parsePropLim d text) (parseProp text) := by
  refine (room_parseStream _).mono ?_
  have h1 : (CharStream.ofCStr text propDelims).rest.length ≤ text.length := by
    have h2 : (cstr text).length ≤ text.length := (List.takeWhile_prefix _).length_le
    obtain ⟨v, hv⟩ := (skipDelims_spec { rest := cstr text, delims := propDelims : CharStream }).1.1
    have := congrArg List.length hv
    simp only [List.length_append] at this
    change (skipDelims { rest := cstr text, delims := propDelims : CharStream }).rest.length ≤ _
    omega
  omega

/-! ### A text that opens groups -/

theorem tok_open (R : Str) : getPropToken (pinit (123 :: R)) = .ok (b!"{", pinit R) :=
  tok_op (dl := []) (by simp) (by simp)

theorem tok_a (R : Str) (hR : R = [] ∨ ∃ R', R = 123 :: R') : getPropToken (pinit (97 :: R)) = .ok (b!"a", pinit R) := by
  have := @tok_word (.bare [] b!"a" []) (by
    refine ⟨by simp, ?_, ?_, by simp, by simp⟩
    · decide
    · decide) R (by
    rcases hR with h | ⟨R', h⟩
    · exact .inl h
    · exact .inr ⟨123, R', h, .inr ⟨fun h => h.elim, by simp⟩⟩)
  exact this

theorem opened_cons (n : Nat) : ∃ R, opened n = 97 :: R ∧ (R = [] ∨ ∃ R', R = 123 :: R') ∧
    (∀ m, n = m + 1 → R = 123 :: opened m) ∧ (n = 0 → R = []) := by
  cases n with
  | zero => exact ⟨[], rfl, .inl rfl, by simp, by simp⟩
  | succ n => exact ⟨123 :: opened n, rfl, .inr ⟨_, rfl⟩, by simp, by simp⟩

theorem opened_length (n : Nat) : (opened n).length = 2 * n + 1 := by
  induction n with
  | zero => rfl
  | succ n ih => simp [opened, ih]; omega

theorem pinit_rest_cons {c : Byte} {R : Str} (hc : strchr propDelims c = false) : (pinit (c :: R)).rest = c :: R := by
  rw [pinit_cons hc]

theorem opened_overflow (d : Nat) : ∀ n R, opened d = 97 :: R → 2 * d + 1 ≤ n → readNodeLim n d (pinit R) = .overflow := by
  induction d with
  | zero =>
    intro n R _ hn
    cases n with
    | zero => omega
    | succ n => rfl
  | succ d ih =>
    intro n R hR hn
    obtain ⟨n, rfl⟩ : ∃ m, n = m + 2 := ⟨n - 2, by omega⟩
    have e : R = 123 :: opened d := by simpa [opened] using hR.symm
    subst e
    obtain ⟨R', h1, h2, -, -⟩ := opened_cons d
    have hg : (pinit (opened d)).good = true := by rw [h1, pinit_cons (by decide)]; rfl
    have hc : readChildrenLim (n + 1) d (pinit (opened d)) b!"{" = .overflow := by
      simp only [readChildrenLim, hg]
      rw [h1, tok_a _ h2]
      change Lim.bind (readNodeLim n d (pinit R')) _ = _
      rw [ih n R' h1 (by omega)]
      rfl
    simp only [readNodeLim, tok_open]
    change Lim.bind (readChildrenLim (n + 1) d (pinit (opened d)) b!"{") _ = _
    rw [hc]
    rfl

theorem opened_ne_zero (n : Nat) : ∀ c ∈ opened n, c ≠ 0 := by
  induction n with
  | zero => decide
  | succ n ih => intro c hc; simp only [opened, List.mem_append] at hc; rcases hc with h | h
                 · revert c; decide
                 · exact ih c h

theorem parse_opened (d : Nat) : parsePropLim d (opened d) = .overflow := by
  obtain ⟨R, h1, h2, h3, h4⟩ := opened_cons d
  have hc : cstr (opened d) = opened d := by
    exact cstr_of_ne_zero (opened_ne_zero d)
  have hl := opened_length d
  have hlen : 2 * d + 1 ≤ (pinit R).rest.length + 1 := by
    cases d with
    | zero => simp
    | succ d =>
      rw [h3 d rfl, pinit_rest_cons (by decide)]
      have := opened_length d
      simp; omega
  have hlen2 : (pinit (opened d)).rest.length = 2 * d + 1 := by
    rw [h1, pinit_rest_cons (by decide), ← h1, hl]
  change parseStreamLim d (pinit (cstr (opened d))) = _
  rw [hc]
  simp only [parseStreamLim, hlen2]
  rw [h1, tok_a _ h2]
  change Lim.bind (parseLoopLim d (2 * d + 2) (pinit R) b!"a") _ = _
  simp only [parseLoopLim]
  change Lim.bind (Lim.bind (readNodeLim ((pinit R).rest.length + 1) d (pinit R)) _) _ = _
  rw [opened_overflow d _ R h1 hlen]
  rfl

/-! ## XML -/

namespace Xml

theorem nestingAll_append (a b : List Node) : nestingAll (a ++ b) = max (nestingAll a) (nestingAll b) := by
  induction a with
  | nil => simp [nestingAll]
  | cons x r ih => simp only [List.cons_append, nestingAll, ih]; omega

theorem parseContents_prefix (n : Nat) : ∀ v cs s v' cs' r, parseContents n v cs s = .ok (v', cs', r) → cs <+: cs' := by
  induction n with
  | zero => intro v cs s v' cs' r h; simp [parseContents] at h
  | succ n ih =>
    intro v cs s v' cs' r h
    unfold parseContents at h
    split at h
    · simp at h
    · split at h
      · cases h; exact List.prefix_refl _
      · simp at h
    · obtain ⟨x, hx, h⟩ := Res.bind_eq_ok.1 h
      exact (List.prefix_append _ _).trans (ih _ _ _ _ _ _ h)
    · obtain ⟨x, hx, h⟩ := Res.bind_eq_ok.1 h
      exact (List.prefix_append _ _).trans (ih _ _ _ _ _ _ h)

theorem drop_more {cs x cs' : List Node} (h : cs ++ x <+: cs') :
    nestingAll (cs'.drop cs.length) = max (nestingAll x) (nestingAll (cs'.drop (cs ++ x).length)) := by
  obtain ⟨y, rfl⟩ := h
  rw [List.append_assoc, List.drop_left, ← List.append_assoc, List.drop_left, nestingAll_append]

theorem contents_view (w : Str) : w = [] ∨ (∃ t, w = 60 :: 47 :: t) ∨ (∃ t, w = 60 :: t ∧ ∀ t', t ≠ 47 :: t') ∨
    (w ≠ [] ∧ ∀ t, w ≠ 60 :: t) := by
  cases w with
  | nil => exact .inl rfl
  | cons c t =>
    by_cases hc : c = 60
    · subst hc
      by_cases h : ∃ t', t = 47 :: t'
      · obtain ⟨t', rfl⟩ := h; exact .inr (.inl ⟨t', rfl⟩)
      · exact .inr (.inr (.inl ⟨t, rfl, fun t' ht => h ⟨t', ht⟩⟩))
    · exact .inr (.inr (.inr ⟨by simp, by simp [hc]⟩))

section
variable {n : Nat} {v : Str} {cs : List Node} {s t : Str}

theorem contents_close (e : s.dropWhile isSpace = 60 :: 47 :: t) :
    parseContents (n + 1) v cs s = if ((t.dropWhile isNameChar).dropWhile isSpace).head? = some 62 then
      .ok (v, cs, ((t.dropWhile isNameChar).dropWhile isSpace).drop 1) else .throws .parseError := by
  simp only [parseContents, e]
  split
  · rename_i h; simp [h]
  · rename_i h
    cases hh : (t.dropWhile isNameChar).dropWhile isSpace with
    | nil => rfl
    | cons c r =>
      have : c ≠ 62 := fun hc => h r (by rw [hh, hc])
      simp [this]

theorem contents_close_lim (d : Nat) (e : s.dropWhile isSpace = 60 :: 47 :: t) :
    parseContentsLim (n + 1) d v cs s = .done (if ((t.dropWhile isNameChar).dropWhile isSpace).head? = some 62 then
      .ok (v, cs, ((t.dropWhile isNameChar).dropWhile isSpace).drop 1) else .throws .parseError) := by
  simp only [parseContentsLim, e]
  split
  · rename_i h; simp [h]
  · rename_i h
    cases hh : (t.dropWhile isNameChar).dropWhile isSpace with
    | nil => rfl
    | cons c r =>
      have : c ≠ 62 := fun hc => h r (by rw [hh, hc])
      simp [this]

theorem contents_node (e : s.dropWhile isSpace = 60 :: t) (h : ∀ t', t ≠ 47 :: t') :
    parseContents (n + 1) v cs s = parseNode n t >>= fun x => parseContents n v (cs ++ x.1.toList) x.2 := by
  rw [parseContents, e]
  split
  · rename_i h1; simp at h1
  · rename_i h1; simp at h1; exact absurd h1 (h _)
  · rename_i h1; simp at h1; rw [h1]
  · rename_i h1; exact absurd rfl (h1 _)

theorem contents_node_lim (d : Nat) (e : s.dropWhile isSpace = 60 :: t) (h : ∀ t', t ≠ 47 :: t') :
    parseContentsLim (n + 1) d v cs s = parseNodeLim n d t >>= fun x => parseContentsLim n d v (cs ++ x.1.toList) x.2 := by
  rw [parseContentsLim, e]
  split
  · rename_i h1; simp at h1
  · rename_i h1; simp at h1; exact absurd h1 (h _)
  · rename_i h1; simp at h1; rw [h1]
  · rename_i h1; exact absurd rfl (h1 _)

theorem contents_text (e : s.dropWhile isSpace ≠ []) (h : ∀ t, s.dropWhile isSpace ≠ 60 :: t) :
    parseContents (n + 1) v cs s = expand isTextChar s >>= fun x =>
      parseContents n (if (cstr v).isEmpty then x.1 else v) (cs ++ [.mk .data [] x.1 [] []]) x.2 := by
  rw [parseContents]
  split
  · rename_i h1; exact absurd h1 e
  · rename_i h1; exact absurd h1 (h _)
  · rename_i h1; exact absurd h1 (h _)
  · rfl

theorem contents_text_lim (d : Nat) (e : s.dropWhile isSpace ≠ []) (h : ∀ t, s.dropWhile isSpace ≠ 60 :: t) :
    parseContentsLim (n + 1) d v cs s = Lim.done (expand isTextChar s) >>= fun x =>
      parseContentsLim n d (if (cstr v).isEmpty then x.1 else v) (cs ++ [.mk .data [] x.1 [] []]) x.2 := by
  rw [parseContentsLim]
  split
  · rename_i h1; exact absurd h1 e
  · rename_i h1; exact absurd h1 (h _)
  · rename_i h1; exact absurd h1 (h _)
  · rfl

end

mutual
theorem room_parseNode : ∀ (n : Nat) (s : Str), (∀ c ∈ s, c ≠ 0) → 2 * s.length + 2 ≤ n →
    Room (s.length / 3 + 1) (fun a => nestingAll a.1.toList) (fun d => parseNodeLim n d s) (parseNode n s)
  | n + 1, s, hz, hn => by
    simp only [parseNodeLim, parseNode]
    split
    · exact room_last (g := fun r => (none, r)) (fun _ => rfl)
    · rename_i t
      by_cases h1 : b!"--".isPrefixOf t = true
      · simp only [if_pos h1]
        exact room_last (g := fun r => (none, r)) (fun _ => rfl)
      simp only [if_neg h1]
      by_cases h2 : b!"[CDATA[".isPrefixOf t = true
      · simp only [if_pos h2]
        exact room_last (g := fun x : Str × Str => (some (Node.mk .cdata [] x.1 [] []), x.2)) (fun _ => rfl)
      simp only [if_neg h2]
      by_cases h3 : isDoctype t = true
      · simp only [if_pos h3]
        exact room_last (g := fun r => (none, r)) (fun _ => rfl)
      simp only [if_neg h3]
      exact room_last (g := fun r => (none, r)) (fun _ => rfl)
    · rename_i h1 h2
      split
      · exact absurd rfl (h1 _)
      · exact absurd rfl (h2 _)
      · exact room_parseElement n s hz (by omega)
theorem room_parseElement : ∀ (n : Nat) (s : Str), (∀ c ∈ s, c ≠ 0) → 2 * s.length + 1 ≤ n →
    Room (s.length / 3 + 1) (fun a => nestingAll a.1.toList) (fun d => parseElementLim n d s) (parseElement n s)
  | n + 1, s, hz, hn => by
    obtain ⟨h, h1, h2, h3⟩ : Room (s.length / 3 + 1) (fun a => (nestingAll a.1.toList - 1) + 1)
        (fun d => parseElementLim (n + 1) d s) (parseElement (n + 1) s) := by
      refine room_call (F := fun d => parseElementLim (n + 1) (d + 1) s) ?_ rfl (fun d => rfl)
      rw [parseElement]
      simp only [parseElementLim]
      split
      · exact room_done _ _ _ (fun a ha => by simp at ha)
      · rename_i hne
        have hne' : s.takeWhile isNameChar ≠ [] := by simpa using hne
        refine room_step ?_
        rintro ⟨attrs, r⟩ hx
        have h1 : r <:+ (s.dropWhile isNameChar).dropWhile isSpace := by
          have := parseAttrs_ends ((s.dropWhile isNameChar).dropWhile isSpace)
          rw [hx] at this
          exact this
        have h2 : ((s.dropWhile isNameChar).dropWhile isSpace).length + 1 ≤ s.length := by
          have e := congrArg List.length (List.takeWhile_append_dropWhile (p := isNameChar) (l := s))
          have := (List.dropWhile_suffix (p := isSpace) (l := s.dropWhile isNameChar)).length_le
          have : 1 ≤ (s.takeWhile isNameChar).length := by
            cases hh : s.takeWhile isNameChar with
            | nil => rw [hh] at hne; simp at hne
            | cons => simp
          simp only [List.length_append] at e
          omega
        have h3 : r <:+ s := h1.trans ((List.dropWhile_suffix _).trans (List.dropWhile_suffix _))
        have hl := h1.length_le
        dsimp only
        split
        · rename_i t
          simp only [List.length_cons] at hl
          have ht : t <:+ s := (List.suffix_cons _ _).trans h3
          refine room_map ((room_parseContents n [] [] t (fun c hc => hz c (ht.subset hc)) (by omega)).mono (by omega))
            (fun x => (some (Node.mk .element (s.takeWhile isNameChar) x.1 attrs x.2.1), x.2.2)) (fun x _ => ?_)
          simp [nestingAll, nesting, hne']
        · exact room_done _ _ _ (fun a ha => by cases ha; simp [nestingAll, nesting, hne'])
        · rename_i k1 k2
          split
          · exact absurd rfl (k1 _)
          · exact absurd rfl (k2 _)
          · exact room_done _ _ _ (fun a ha => by simp at ha)
    refine ⟨h, h1, h2, fun a ha => ?_⟩
    rw [h3 a ha]
    dsimp only
    have : 1 ≤ nestingAll a.1.toList := by
      rw [parseElement] at ha
      split at ha
      · simp at ha
      · rename_i hne
        have hne' : s.takeWhile isNameChar ≠ [] := by simpa using hne
        obtain ⟨x, hx, ha⟩ := Res.bind_eq_ok.1 ha
        dsimp only at ha
        split at ha
        · obtain ⟨y, hy, ha⟩ := Res.bind_eq_ok.1 ha
          cases ha
          simp only [Option.toList, nestingAll, nesting, if_neg hne']
          omega
        · cases ha
          simp only [Option.toList, nestingAll, nesting, if_neg hne']
          omega
        · simp at ha
    omega
theorem room_parseContents : ∀ (n : Nat) (v : Str) (cs : List Node) (s : Str), (∀ c ∈ s, c ≠ 0) → 2 * s.length + 1 ≤ n →
    Room ((s.length + 2) / 3) (fun a => nestingAll (a.2.1.drop cs.length)) (fun d => parseContentsLim n d v cs s)
      (parseContents n v cs s)
  | n + 1, v, cs, s, hz, hn => by
    have hd : s.dropWhile isSpace <:+ s := List.dropWhile_suffix _
    rcases contents_view (s.dropWhile isSpace) with e | ⟨t, e⟩ | ⟨t, e, ht⟩ | ⟨e, ht⟩
    · simp only [parseContents, parseContentsLim, e]
      exact room_done _ _ _ (fun a ha => by simp at ha)
    · simp only [contents_close_lim _ e, contents_close e]
      refine room_done _ _ _ (fun a ha => ?_)
      split at ha
      · cases ha; simp [nestingAll]
      · simp at ha
    · simp only [contents_node_lim _ e ht, contents_node e ht]
      have h2 : (60 :: t) <:+ s := by rw [← e]; exact hd
      have h3 : t <:+ s := (List.suffix_cons _ _).trans h2
      have hl := h2.length_le
      simp only [List.length_cons] at hl
      have hz1 : ∀ c ∈ t, c ≠ 0 := fun c hc => hz c (h3.subset hc)
      refine room_bind ((room_parseNode n t hz1 (by omega)).mono (by omega))
        (fun x a => nestingAll (a.2.1.drop (cs ++ x.1.toList).length)) ?_ ?_
      · rintro ⟨nd, r⟩ hx
        have h4 : r <:+ t := by
          have := parseNode_ends n t hz1 (by omega)
          rw [hx] at this
          exact this
        have hl2 := h4.length_le
        exact (room_parseContents n v (cs ++ nd.toList) r (fun c hc => hz1 c (h4.subset hc)) (by omega)).mono (by omega)
      · rintro ⟨nd, r⟩ hx ⟨v', cs', r'⟩ hc
        exact drop_more (parseContents_prefix _ _ _ _ _ _ _ hc)
    · simp only [contents_text_lim _ e ht, contents_text e ht]
      cases hs : s with
      | nil => rw [hs] at e; exact absurd rfl e
      | cons c s' =>
        have hc : isTextChar c = true := by
          have hc0 : c ≠ 0 := hz c (by simp [hs])
          have hc1 : c ≠ 60 := by
            rintro rfl
            apply ht s'
            rw [hs, List.dropWhile_cons_of_neg (by decide)]
          simp [isTextChar, hc0, hc1]
        refine room_bind (e := fun _ => 0) (room_done _ _ _ (fun _ _ => rfl))
          (fun x a => nestingAll (a.2.1.drop (cs ++ [Node.mk .data [] x.1 [] []]).length)) ?_ ?_
        · rintro ⟨x, r⟩ hx
          have hx2 : r <:+ s' := expand_head _ hc hx
          have hl2 := hx2.length_le
          have hz' : ∀ c ∈ r, c ≠ 0 := fun c hc => hz c (by rw [hs]; exact List.mem_cons_of_mem _ (hx2.subset hc))
          rw [hs] at hn
          simp only [List.length_cons] at hn
          refine (room_parseContents n _ _ r hz' (by omega)).mono ?_
          simp only [List.length_cons]
          omega
        · rintro ⟨x, r⟩ hx ⟨v', cs', r'⟩ hc
          dsimp only
          rw [drop_more (parseContents_prefix _ _ _ _ _ _ _ hc)]
          rfl
end

section
variable {n : Nat} {s t : Str}

theorem doc_node (e : s.dropWhile isSpace = 60 :: t) : parseDocN (n + 1) s =
    parseNode (2 * t.length + 2) t >>= fun x => parseDocN n x.2 >>= fun rest => .ok (x.1.toList ++ rest) := by
  simp only [parseDocN, e]

theorem doc_node_lim (d : Nat) (e : s.dropWhile isSpace = 60 :: t) : parseDocLim d (n + 1) s =
    parseNodeLim (2 * t.length + 2) d t >>= fun x => parseDocLim d n x.2 >>= fun rest => .done (.ok (x.1.toList ++ rest)) := by
  simp only [parseDocLim, e]

theorem doc_other (e : s.dropWhile isSpace ≠ []) (h : ∀ t, s.dropWhile isSpace ≠ 60 :: t) :
    parseDocN (n + 1) s = .throws .parseError := by
  rw [parseDocN]
  split
  · rename_i h1; exact absurd h1 e
  · rename_i h1; exact absurd h1 (h _)
  · rfl

theorem doc_other_lim (d : Nat) (e : s.dropWhile isSpace ≠ []) (h : ∀ t, s.dropWhile isSpace ≠ 60 :: t) :
    parseDocLim d (n + 1) s = .done (.throws .parseError) := by
  rw [parseDocLim]
  split
  · rename_i h1; exact absurd h1 e
  · rename_i h1; exact absurd h1 (h _)
  · rfl

end

theorem room_parseDoc : ∀ (n : Nat) (s : Str), (∀ c ∈ s, c ≠ 0) → s.length < n →
    Room ((s.length + 2) / 3) nestingAll (fun d => parseDocLim d n s) (parseDocN n s)
  | n + 1, s, hz, hn => by
    have hd : s.dropWhile isSpace <:+ s := List.dropWhile_suffix _
    by_cases h : ∃ t, s.dropWhile isSpace = 60 :: t
    · obtain ⟨t, e⟩ := h
      have h2 : (60 :: t) <:+ s := by rw [← e]; exact hd
      have h3 : t <:+ s := (List.suffix_cons _ _).trans h2
      have hl := h2.length_le
      simp only [List.length_cons] at hl
      have hz1 : ∀ c ∈ t, c ≠ 0 := fun c hc => hz c (h3.subset hc)
      simp only [doc_node_lim _ e, doc_node e]
      refine room_bind ((room_parseNode _ t hz1 (Nat.le_refl _)).mono (by omega))
        (fun x a => nestingAll (a.drop x.1.toList.length)) ?_ ?_
      · rintro ⟨nd, r⟩ hx
        have h4 : r <:+ t := by
          have := parseNode_ends _ t hz1 (Nat.le_refl _)
          rw [hx] at this
          exact this
        have hl2 := h4.length_le
        exact room_map ((room_parseDoc n r (fun c hc => hz1 c (h4.subset hc)) (by omega)).mono (by omega))
          (fun z => nd.toList ++ z) (fun z _ => by rw [List.drop_left])
      · rintro ⟨nd, r⟩ hx c hc
        obtain ⟨z, -, hz⟩ := Res.bind_eq_ok.1 hc
        cases hz
        rw [List.drop_left, nestingAll_append]
    · by_cases e : s.dropWhile isSpace = []
      · simp only [parseDocLim, parseDocN, e]
        exact room_done _ _ _ (fun a ha => by cases ha; rfl)
      · have h' : ∀ t, s.dropWhile isSpace ≠ 60 :: t := fun t ht => h ⟨t, ht⟩
        simp only [doc_other_lim _ e h', doc_other e h']
        exact room_done _ _ _ (fun a ha => by simp at ha)

mutual
theorem room_getXmlNode : ∀ x : Node,
    NeedsRoom (nestingAll x.children + 1) (fun d => getXmlNodeLim d x) (.ok (getXmlNode x))
  | .mk k name value attrs cs => by
    obtain ⟨h, h1, h2, h3⟩ := room_call (e := fun _ => nestingAll cs) (b := nestingAll cs)
      (F := fun d => getXmlNodeLim (d + 1) (.mk k name value attrs cs)) (G := fun d => getXmlNodeLim d (.mk k name value attrs cs))
      (r := .ok (getXmlNode (.mk k name value attrs cs))) (by
        simp only [getXmlNodeLim, getXmlNode]
        have := room_map (e' := fun _ => nestingAll cs) (b := nestingAll cs) (e := fun _ => nestingAll cs)
          ⟨_, room_getXmlChildren cs, Nat.le_refl _, fun _ _ => rfl⟩
          (fun cs => PN.mk false (cstr value) (attrs.map (fun a => (cstr a.1, PN.leaf (cstr a.2))) ++ cs)) (fun _ _ => rfl)
        exact this) (by simp [getXmlNodeLim]) (fun d => rfl)
    rw [h3 _ rfl] at h1
    exact h1
theorem room_getXmlChildren : ∀ xs : List Node,
    NeedsRoom (nestingAll xs) (fun d => getXmlChildrenLim d xs) (.ok (getXmlChildren xs))
  | [] => needsRoom_done _
  | x :: r => by
    simp only [getXmlChildrenLim, getXmlChildren, nestingAll]
    cases hx : x with
    | mk k name value attrs cs =>
      by_cases hn : name = []
      · subst hn
        simpa [Node.name, nesting] using room_getXmlChildren r
      · have hl : name.length > 0 := List.length_pos_iff.2 hn
        have h1 := room_getXmlNode (.mk k name value attrs cs)
        have h2 := room_getXmlChildren r
        simp only [Node.name, if_pos hl, nesting, if_neg hn]
        have h3 : NeedsRoom (max (nestingAll r) 0) (fun d => getXmlChildrenLim d r >>= fun rest =>
            Lim.done (.ok ((cstr name, getXmlNode (.mk k name value attrs cs)) :: rest)))
            (.ok ((cstr name, getXmlNode (.mk k name value attrs cs)) :: getXmlChildren r)) :=
          needsRoom_bind (g := fun rest => .ok ((cstr name, getXmlNode (.mk k name value attrs cs)) :: rest)) h2
            (fun a _ => needsRoom_done _) (fun h => absurd rfl (h _))
        have h4 := needsRoom_bind (G := fun m d => getXmlChildrenLim d r >>= fun rest =>
            Lim.done (.ok ((cstr name, m) :: rest)))
          (g := fun m => .ok ((cstr name, m) :: getXmlChildren r)) (k := max (nestingAll r) 0) h1
          (fun a ha => by cases ha; exact h3) (fun h => absurd rfl (h _))
        simpa [Node.children, hl] using h4
end

mutual
theorem height_getXmlNode : ∀ x : Node, height (getXmlNode x) ≤ nestingAll x.children + 1
  | .mk k name value attrs cs => by
    have h1 := height_getXmlChildren cs
    simp only [getXmlNode, height, Node.children]
    induction attrs with
    | nil => simpa using h1
    | cons a r ih =>
      simp only [List.map_cons, List.cons_append, heightBelow]
      have : height (PN.leaf (cstr a.2)) = 0 := rfl
      omega
theorem height_getXmlChildren : ∀ xs : List Node, heightBelow (getXmlChildren xs) ≤ nestingAll xs + 1
  | [] => by simp [getXmlChildren, heightBelow]
  | x :: r => by
    have h1 := height_getXmlNode x
    have h2 := height_getXmlChildren r
    cases hx : x with
    | mk k name value attrs cs =>
      rw [hx] at h1
      simp only [getXmlChildren, Node.name, Node.children, nestingAll, nesting] at h1 ⊢
      by_cases hn : name = []
      · subst hn
        simpa using h2
      · have hl : name.length > 0 := List.length_pos_iff.2 hn
        simp only [hl, if_neg hn, if_true, heightBelow]
        omega
end

/-- Nodes without a name have no children. -/
theorem parseNode_bare {n : Nat} {s r : Str} {x : Node} (h : parseNode n s = .ok (some x, r)) :
    x.name ≠ [] ∨ x.children = [] := by
  cases n with
  | zero => simp [parseNode] at h
  | succ n =>
    unfold parseNode at h
    split at h
    · obtain ⟨y, hy, h⟩ := Res.bind_eq_ok.1 h; simp at h
    · split at h
      · obtain ⟨y, hy, h⟩ := Res.bind_eq_ok.1 h; simp at h
      split at h
      · obtain ⟨y, hy, h⟩ := Res.bind_eq_ok.1 h
        simp only [Res.ok.injEq, Prod.mk.injEq, Option.some.injEq] at h
        rw [← h.1]
        exact .inr rfl
      split at h
      · obtain ⟨y, hy, h⟩ := Res.bind_eq_ok.1 h; simp at h
      · obtain ⟨y, hy, h⟩ := Res.bind_eq_ok.1 h; simp at h
    · cases n with
      | zero => simp [parseElement] at h
      | succ n =>
        rw [parseElement] at h
        split at h
        · simp at h
        · rename_i hne
          have hne' : s.takeWhile isNameChar ≠ [] := by simpa using hne
          obtain ⟨y, hy, h⟩ := Res.bind_eq_ok.1 h
          dsimp only at h
          split at h
          · obtain ⟨z, hz, h⟩ := Res.bind_eq_ok.1 h
            simp only [Res.ok.injEq, Prod.mk.injEq, Option.some.injEq] at h
            rw [← h.1]
            exact .inl hne'
          · simp only [Res.ok.injEq, Prod.mk.injEq, Option.some.injEq] at h
            rw [← h.1]
            exact .inl hne'
          · simp at h

theorem parseDoc_bare (n : Nat) : ∀ (s : Str) (xs : List Node), parseDocN n s = .ok xs →
    ∀ x ∈ xs, x.name ≠ [] ∨ x.children = [] := by
  induction n with
  | zero => intro s xs h; simp [parseDocN] at h
  | succ n ih =>
    intro s xs h
    unfold parseDocN at h
    split at h
    · cases h; simp
    · obtain ⟨y, hy, h⟩ := Res.bind_eq_ok.1 h
      obtain ⟨z, hz, h⟩ := Res.bind_eq_ok.1 h
      simp only [Res.ok.injEq] at h
      intro x hx
      rw [← h, List.mem_append] at hx
      rcases hx with hx | hx
      · obtain ⟨o, r⟩ := y
        cases o with
        | none => simp at hx
        | some o =>
          simp at hx
          subst hx
          exact parseNode_bare hy
      · exact ih _ _ hz x hx
    · simp at h

theorem nestingAll_head {x : Node} {r : List Node} (h : x.name ≠ [] ∨ x.children = []) :
    nestingAll x.children + 1 ≤ max 1 (nestingAll (x :: r)) := by
  obtain ⟨k, name, value, attrs, cs⟩ := x
  simp only [Node.name, Node.children, nestingAll, nesting] at *
  by_cases hn : name = []
  · have : cs = [] := by rcases h with h | h <;> simp_all
    subst this
    simp only [nestingAll]
    omega
  · rw [if_neg hn]; omega

end Xml

/-- What `load_xml` needs for a text with these nodes. -/
def xmlRoom (ns : List Xml.Node) : Nat := if ns = [] then 0 else max 1 (nestingAll ns)

theorem room_parseXml (text : Str) : ∃ h, NeedsRoom h (fun d => parseXmlLim d text) (parseXml text) ∧
    3 * h ≤ text.length + 2 ∧ (∀ ns, Xml.parseDoc text = .ok ns → h = xmlRoom ns) ∧
    ∀ t, parseXml text = .ok t → height t ≤ h + 1 := by
  have h1 : Xml.skipBom (cstr text) <:+ cstr text := by
    unfold Xml.skipBom
    split
    · exact List.drop_suffix _ _
    · exact List.suffix_refl _
  have h2 : (cstr text).length ≤ text.length := (List.takeWhile_prefix _).length_le
  have h3 := h1.length_le
  have hz : ∀ c ∈ Xml.skipBom (cstr text), c ≠ 0 := by
    intro c hc
    have := List.all_eq_true.1 (List.all_takeWhile (p := fun x : Byte => x != 0) (l := text)) c (h1.subset hc)
    simpa using this
  obtain ⟨h0, k1, k2, k3⟩ := Xml.room_parseDoc (text.length + 1) _ hz (by omega)
  have hb := Xml.parseDoc_bare (text.length + 1) (Xml.skipBom (cstr text))
  have hl : ∀ ns, Xml.parseDocN (text.length + 1) (Xml.skipBom (cstr text)) = .ok ns → ns ≠ [] → 1 ≤ text.length := by
    intro ns hns hne
    cases ht : text with
    | nil => subst ht; exact absurd hns (by simp [Xml.parseDocN, Xml.skipBom, cstr, Ne.symm hne])
    | cons => simp
  simp only [NeedsRoom, parseXml, Xml.parseDoc, parseXmlLim]
  simp only [NeedsRoom] at k1
  generalize Xml.parseDocN (text.length + 1) (Xml.skipBom (cstr text)) = r at *
  cases r with
  | ok ns =>
    cases ns with
    | nil =>
      refine ⟨0, ?_, by omega, fun ns h => by cases h; rfl, fun t h => by cases h; simp [PN.nil, height, heightBelow]⟩
      intro d
      have e : h0 = 0 := k3 _ rfl
      rw [k1 d, e]
      simp
    | cons x r =>
      have e : h0 = nestingAll (x :: r) := k3 _ rfl
      have h5 := @Xml.nestingAll_head x r (hb _ rfl x (by simp))
      have h6 := Xml.room_getXmlNode x
      have h7 := hl _ rfl (by simp)
      have h8 := Xml.height_getXmlNode x
      refine ⟨max 1 (nestingAll (x :: r)), ?_, by omega, fun ns h => by cases h; simp [xmlRoom], fun t h => ?_⟩
      · intro d
        rw [k1 d, e]
        by_cases hd : nestingAll (x :: r) ≤ d
        · rw [if_pos hd]
          change Lim.bind (getXmlNodeLim d x) _ = _
          rw [show getXmlNodeLim d x = _ from h6 d]
          by_cases hd1 : nestingAll x.children + 1 ≤ d
          · rw [if_pos hd1, if_pos (by omega)]
            rfl
          · rw [if_neg hd1, if_neg (by omega)]
            rfl
        · rw [if_neg hd, if_neg (by omega)]
      · cases h
        simp only [height, heightBelow]
        omega
  | throws y =>
    refine ⟨h0, ?_, by omega, fun ns h => by simp at h, fun t h => by simp at h⟩
    intro d
    rw [k1 d]
    by_cases hd : h0 ≤ d
    · rw [if_pos hd, if_pos hd]
    · rw [if_neg hd, if_neg hd]
  | ub =>
    refine ⟨h0, ?_, by omega, fun ns h => by simp at h, fun t h => by simp at h⟩
    intro d
    rw [k1 d]
    by_cases hd : h0 ≤ d
    · rw [if_pos hd, if_pos hd]
    · rw [if_neg hd, if_neg hd]
  | diverges =>
    refine ⟨h0, ?_, by omega, fun ns h => by simp at h, fun t h => by simp at h⟩
    intro d
    rw [k1 d]
    by_cases hd : h0 ≤ d
    · rw [if_pos hd, if_pos hd]
    · rw [if_neg hd, if_neg hd]

/-! ### A text that opens elements -/

theorem openedXml_cons (n : Nat) : ∃ R, openedXml n = 60 :: R ∧ (∀ m, n = m + 1 → R = 97 :: 62 :: openedXml m) := by
  cases n with
  | zero => exact ⟨[], rfl, by simp⟩
  | succ n => exact ⟨_, rfl, fun m hm => by cases hm; rfl⟩

theorem openedXml_length (n : Nat) : (openedXml n).length = 3 * n + 1 := by
  induction n with
  | zero => rfl
  | succ n ih => simp [openedXml, ih]; omega

theorem openedXml_ne_zero (n : Nat) : ∀ c ∈ openedXml n, c ≠ 0 := by
  induction n with
  | zero => decide
  | succ n ih => intro c hc; simp only [openedXml, List.mem_append] at hc; rcases hc with h | h
                 · revert c; decide
                 · exact ih c h

theorem openedXml_overflow (d : Nat) : ∀ n R, openedXml d = 60 :: R → 3 * d + 2 ≤ n →
    Xml.parseNodeLim n d R = .overflow := by
  induction d with
  | zero =>
    intro n R hR hn
    obtain ⟨n, rfl⟩ : ∃ m, n = m + 2 := ⟨n - 2, by omega⟩
    have : R = [] := by simpa [openedXml] using hR.symm
    subst this
    simp [Xml.parseNodeLim, Xml.parseElementLim]
  | succ d ih =>
    intro n R hR hn
    obtain ⟨n, rfl⟩ : ∃ m, n = m + 3 := ⟨n - 3, by omega⟩
    have e : R = 97 :: 62 :: openedXml d := by simpa [openedXml] using hR.symm
    subst e
    obtain ⟨R', h1, -⟩ := openedXml_cons d
    have hA : Xml.parseAttrs (62 :: openedXml d) = .ok ([], 62 :: openedXml d) := by
      simp [Xml.parseAttrs, Xml.parseAttrsN, Xml.isAttrChar, List.takeWhile]
    have hC : Xml.parseContentsLim (n + 1) d [] [] (openedXml d) = .overflow := by
      have h47 : ∀ t', R' ≠ 47 :: t' := by
        intro t' h
        cases d with
        | zero => simp [openedXml] at h1; rw [h1] at h; simp at h
        | succ d => simp [openedXml] at h1; rw [← h1] at h; simp at h
      rw [Xml.contents_node_lim d (t := R') (by rw [h1, List.dropWhile_cons_of_neg (by decide)]) h47]
      change Lim.bind (Xml.parseNodeLim n d R') _ = _
      rw [ih n R' h1 (by omega)]
      rfl
    have hE : Xml.parseElementLim (n + 2) (d + 1) (97 :: 62 :: openedXml d) = .overflow := by
      rw [Xml.parseElementLim]
      have t1 : (97 :: 62 :: openedXml d).takeWhile Xml.isNameChar = [97] := by
        rw [List.takeWhile_cons_of_pos (by decide), List.takeWhile_cons_of_neg (by decide)]
      have t2 : ((97 :: 62 :: openedXml d).dropWhile Xml.isNameChar).dropWhile Xml.isSpace = 62 :: openedXml d := by
        rw [List.dropWhile_cons_of_pos (by decide), List.dropWhile_cons_of_neg (by decide),
          List.dropWhile_cons_of_neg (by decide)]
      simp only [t1, t2, hA]
      change Lim.bind (Xml.parseContentsLim (n + 1) d [] [] (openedXml d)) _ = _
      rw [hC]
      rfl
    simp only [Xml.parseNodeLim]
    exact hE

theorem parse_openedXml (d : Nat) : parseXmlLim d (openedXml d) = .overflow := by
  obtain ⟨R, h1, -⟩ := openedXml_cons d
  have hc : cstr (openedXml d) = openedXml d := cstr_of_ne_zero (openedXml_ne_zero d)
  have hl := openedXml_length d
  have hb : Xml.skipBom (openedXml d) = openedXml d := by
    rw [Xml.skipBom, h1, if_neg (by simp [List.isPrefixOf])]
  have hR : R.length = 3 * d := by rw [h1] at hl; simpa using hl
  have hD : Xml.parseDocLim d ((openedXml d).length + 1) (openedXml d) = .overflow := by
    rw [Xml.doc_node_lim d (t := R) (by rw [h1, List.dropWhile_cons_of_neg (by decide)])]
    change Lim.bind (Xml.parseNodeLim (2 * R.length + 2) d R) _ = _
    rw [openedXml_overflow d _ R h1 (by omega)]
    rfl
  simp only [parseXmlLim, hc, hb, hD]

/-! ## Writing and destroying -/

mutual
theorem room_writeNode (readable : Bool) : ∀ (n : PN) (label : Str) (level : Nat),
    NeedsRoom (height n + 1) (fun d => writeNodeLim readable d label level n) (.ok (writeNode readable label level n))
  | .mk a v cs, label, level => by
    obtain ⟨h, h1, h2, h3⟩ := room_call (e := fun _ => heightBelow cs) (b := heightBelow cs)
      (F := fun d => writeNodeLim readable (d + 1) label level (.mk a v cs))
      (G := fun d => writeNodeLim readable d label level (.mk a v cs))
      (r := .ok (writeNode readable label level (.mk a v cs))) (by
        simp only [writeNodeLim, writeNode]
        have := room_map (e' := fun _ => heightBelow cs) (b := heightBelow cs) (e := fun _ => heightBelow cs)
          ⟨_, room_writeNodes readable cs (level + 1), Nat.le_refl _, fun _ _ => rfl⟩
          (fun body => indentStr readable level ++ tryQuoted label ++ writeValue readable (.mk a v cs) ++ newlineStr readable ++
            (if cs.isEmpty then []
             else indentStr readable level ++ b!"{" ++ newlineStr readable ++ body ++
               indentStr readable level ++ b!"}" ++ newlineStr readable)) (fun _ _ => rfl)
        exact this) (by simp [writeNodeLim]) (fun d => rfl)
    rw [h3 _ rfl] at h1
    exact h1
theorem room_writeNodes (readable : Bool) : ∀ (cs : List (Str × PN)) (level : Nat),
    NeedsRoom (heightBelow cs) (fun d => writeNodesLim readable d level cs) (.ok (writeNodes readable level cs))
  | [], level => needsRoom_done _
  | (k, n) :: r, level => by
    simp only [writeNodesLim, writeNodes, heightBelow]
    have h1 := room_writeNode readable n k level
    have h2 := room_writeNodes readable r level
    have h3 : NeedsRoom (max (heightBelow r) 0) (fun d => writeNodesLim readable d level r >>= fun b =>
        Lim.done (.ok (writeNode readable k level n ++ b))) (.ok (writeNode readable k level n ++ writeNodes readable level r)) :=
      needsRoom_bind (g := fun b => .ok (writeNode readable k level n ++ b)) h2
        (fun a _ => needsRoom_done _) (fun h => absurd rfl (h _))
    have h4 := needsRoom_bind (G := fun m d => writeNodesLim readable d level r >>= fun b => Lim.done (.ok (m ++ b)))
      (g := fun m => .ok (m ++ writeNodes readable level r)) (k := max (heightBelow r) 0) h1
      (fun a ha => by cases ha; exact h3) (fun h => absurd rfl (h _))
    simpa using h4
end

mutual
theorem room_destroy : ∀ n : PN, NeedsRoom (height n + 1) (fun d => destroyLim d n) (.ok ())
  | .mk a v cs => by
    obtain ⟨h, h1, h2, h3⟩ := room_call (e := fun _ => heightBelow cs) (b := heightBelow cs)
      (F := fun d => destroyLim (d + 1) (.mk a v cs)) (G := fun d => destroyLim d (.mk a v cs)) (r := .ok ())
      ⟨_, room_destroyAll cs, Nat.le_refl _, fun _ _ => rfl⟩ (by simp [destroyLim]) (fun d => rfl)
    rw [h3 _ rfl] at h1
    exact h1
theorem room_destroyAll : ∀ cs : List (Str × PN), NeedsRoom (heightBelow cs) (fun d => destroyAllLim d cs) (.ok ())
  | [] => needsRoom_done _
  | (k, n) :: r => by
    simp only [destroyAllLim, heightBelow]
    have h1 := room_destroy n
    have h2 := room_destroyAll r
    exact needsRoom_bind (G := fun _ d => destroyAllLim d r) (g := fun _ => .ok ()) h1 (fun a _ => h2)
      (fun h => absurd rfl (h _))
end

end Flut
