import Verif.Proofs.PropDoc
import Verif.Spec.Rewrite

/-! # Loading a prop document, saving it and loading it again -/

namespace Flut

open Spec CharStream

/-- The trees that loading gives when every token is of kind `P`. -/
inductive Loaded (P : Str → Prop) : PN → Prop
  | leaf {v} : P v → Loaded P (.mk false v [])
  | node {cs} : (∀ kn ∈ cs, P kn.1 ∧ ∃ c ∈ kn.1.head?, IsLetter c) → (∀ kn ∈ cs, Loaded P kn.2) →
      Loaded P (.mk false [] cs)

theorem validLabel_letter {t : Str} (h : isValidLabel t = .ok true) : ∃ c ∈ t.head?, IsLetter c := by
  cases t with
  | nil => simp [isValidLabel] at h
  | cons c cs =>
    refine ⟨c, by simp, ?_⟩
    simp only [isValidLabel] at h
    split at h
    · simp at h
    · simp only [Res.ok.injEq, isAlphaC, Bool.or_eq_true, Bool.and_eq_true, decide_eq_true_eq,
        UInt8.le_iff_toNat_le] at h
      exact h

section
variable {S : CharStream → Prop} {P : Str → Prop}
  (hS : ∀ s t s', S s → getPropToken s = .ok (t, s') → P t ∧ S s')
include hS

theorem read_loaded (n : Nat) : ∀ {s : CharStream}, S s →
    (∀ nd s', readNode n s = .ok (nd, s') → Loaded P nd ∧ S s') ∧
    ∀ t cs s', readChildren n s t = .ok (cs, s') →
      ((∀ kn ∈ cs, P kn.1 ∧ ∃ c ∈ kn.1.head?, IsLetter c) ∧ ∀ kn ∈ cs, Loaded P kn.2) ∧ S s' := by
  induction n with
  | zero => intro s _; constructor <;> intros <;> simp_all [readNode, readChildren]
  | succ n ih =>
    intro s hs
    constructor
    · intro nd s' h
      rw [readNode] at h
      cases h1 : getPropToken s with
      | ok r =>
        obtain ⟨t, s1⟩ := r
        obtain ⟨hp, hs1⟩ := hS s t s1 hs h1
        rw [h1, Res.bind_ok] at h
        dsimp only at h
        split at h
        · cases h2 : getPropToken s1 with
          | ok r =>
            obtain ⟨v, s2⟩ := r
            obtain ⟨hp2, hs2⟩ := hS s1 v s2 hs1 h2
            rw [h2, Res.bind_ok] at h
            simp only [Res.ok.injEq, Prod.mk.injEq] at h
            obtain ⟨rfl, rfl⟩ := h
            exact ⟨.leaf hp2, hs2⟩
          | _ => rw [h2] at h; simp at h
        · split at h
          · cases h2 : readChildren n s1 t with
            | ok r =>
              obtain ⟨cs, s2⟩ := r
              obtain ⟨⟨k1, k2⟩, hs2⟩ := (ih hs1).2 t cs s2 h2
              rw [h2, Res.bind_ok] at h
              simp only [Res.ok.injEq, Prod.mk.injEq] at h
              obtain ⟨rfl, rfl⟩ := h
              exact ⟨.node k1 k2, hs2⟩
            | _ => rw [h2] at h; simp at h
          · simp only [Res.ok.injEq, Prod.mk.injEq] at h
            obtain ⟨rfl, rfl⟩ := h
            exact ⟨.node (by simp) (by simp), hs1⟩
      | _ => rw [h1] at h; simp at h
    · intro t cs s' h
      rw [readChildren] at h
      split at h
      · cases h1 : getPropToken s with
        | ok r =>
          obtain ⟨t', s1⟩ := r
          obtain ⟨hp, hs1⟩ := hS s t' s1 hs h1
          rw [h1, Res.bind_ok] at h
          dsimp only at h
          cases h2 : isValidLabel t' with
          | ok b =>
            rw [h2, Res.bind_ok] at h
            cases b with
            | true =>
              rw [if_pos rfl] at h
              cases h3 : readNode n s1 with
              | ok r =>
                obtain ⟨nd, s2⟩ := r
                obtain ⟨hnd, hs2⟩ := (ih hs1).1 nd s2 h3
                rw [h3, Res.bind_ok] at h
                dsimp only at h
                cases h4 : readChildren n s2 t' with
                | ok r =>
                  obtain ⟨rest, s3⟩ := r
                  obtain ⟨⟨k1, k2⟩, hs3⟩ := (ih hs2).2 t' rest s3 h4
                  rw [h4, Res.bind_ok] at h
                  simp only [Res.ok.injEq, Prod.mk.injEq] at h
                  obtain ⟨rfl, rfl⟩ := h
                  refine ⟨⟨?_, ?_⟩, hs3⟩
                  · intro kn hkn
                    rcases List.mem_cons.1 hkn with rfl | hkn
                    · exact ⟨hp, validLabel_letter h2⟩
                    · exact k1 kn hkn
                  · intro kn hkn
                    rcases List.mem_cons.1 hkn with rfl | hkn
                    · exact hnd
                    · exact k2 kn hkn
                | _ => rw [h4] at h; simp at h
              | _ => rw [h3] at h; simp at h
            | false =>
              rw [if_neg (by simp)] at h
              split at h
              · simp at h
              · exact (ih hs1).2 t' cs s' h
          | _ => rw [h2] at h; simp at h
        | _ => rw [h1] at h; simp at h
      · simp only [Res.ok.injEq, Prod.mk.injEq] at h
        obtain ⟨rfl, rfl⟩ := h
        exact ⟨⟨by simp, by simp⟩, hs⟩

theorem parseLoop_loaded (n : Nat) : ∀ {s : CharStream} {t : Str} {cs : List (Str × PN)}, S s → P t →
    parseLoop n s t = .ok cs → (∀ kn ∈ cs, P kn.1 ∧ ∃ c ∈ kn.1.head?, IsLetter c) ∧ ∀ kn ∈ cs, Loaded P kn.2 := by
  induction n with
  | zero => intro s t cs _ _ h; simp [parseLoop] at h
  | succ n ih =>
    intro s t cs hs hp h
    rw [parseLoop] at h
    cases h2 : isValidLabel t with
    | ok b =>
      rw [h2, Res.bind_ok] at h
      cases b with
      | true =>
        rw [if_pos rfl] at h
        cases h3 : readNode (s.rest.length + 1) s with
        | ok r =>
          obtain ⟨nd, s1⟩ := r
          obtain ⟨hnd, hs1⟩ := (read_loaded hS _ hs).1 nd s1 h3
          rw [h3, Res.bind_ok] at h
          dsimp only at h
          cases h1 : getPropToken s1 with
          | ok r =>
            obtain ⟨t', s2⟩ := r
            obtain ⟨hp', hs2⟩ := hS s1 t' s2 hs1 h1
            rw [h1, Res.bind_ok] at h
            dsimp only at h
            cases h4 : parseLoop n s2 t' with
            | ok rest =>
              obtain ⟨k1, k2⟩ := ih hs2 hp' h4
              rw [h4, Res.bind_ok] at h
              simp only [Res.ok.injEq] at h
              subst h
              constructor
              · intro kn hkn
                rcases List.mem_cons.1 hkn with rfl | hkn
                · exact ⟨hp, validLabel_letter h2⟩
                · exact k1 kn hkn
              · intro kn hkn
                rcases List.mem_cons.1 hkn with rfl | hkn
                · exact hnd
                · exact k2 kn hkn
            | _ => rw [h4] at h; simp at h
          | _ => rw [h1] at h; simp at h
        | _ => rw [h3] at h; simp at h
      | false =>
        rw [if_neg (by simp)] at h
        simp only [Res.ok.injEq] at h
        subst h
        exact ⟨by simp, by simp⟩
    | _ => rw [h2] at h; simp at h

theorem parse_loaded {s : CharStream} {n : PN} (hs : S s) (h : parseStream s = .ok n) : ∃ cs, n = .mk false [] cs ∧
    (∀ kn ∈ cs, P kn.1 ∧ ∃ c ∈ kn.1.head?, IsLetter c) ∧ ∀ kn ∈ cs, Loaded P kn.2 := by
  rw [parseStream] at h
  cases h1 : getPropToken s with
  | ok r =>
    obtain ⟨t, s1⟩ := r
    obtain ⟨hp, hs1⟩ := hS s t s1 hs h1
    rw [h1, Res.bind_ok] at h
    dsimp only at h
    cases h2 : parseLoop (s.rest.length + 1) s1 t with
    | ok cs =>
      rw [h2, Res.bind_ok] at h
      simp only [Res.ok.injEq] at h
      subst h
      exact ⟨cs, rfl, parseLoop_loaded hS _ hs1 hp h2⟩
    | _ => rw [h2] at h; simp at h
  | _ => rw [h1] at h; simp at h

end

/-! ### Tokens are trimmed -/

theorem strip_is_trimmed (t : Str) : Trimmed (strip t) := by
  obtain ⟨_, _, _, _, _, hh, hl⟩ := strip_isTrim t
  exact ⟨hh, hl⟩

theorem getPropTokenN_trimmed (n : Nat) : ∀ {s t s'}, getPropTokenN n s = .ok (t, s') → Trimmed t := by
  induction n with
  | zero => intro s t s' h; simp [getPropTokenN] at h
  | succ n ih =>
    intro s t s' h
    rw [getPropTokenN] at h
    cases h1 : s.getToken propOperators propQuotes with
    | ok r =>
      obtain ⟨u, s1⟩ := r
      rw [h1, Res.bind_ok] at h
      dsimp only at h
      split at h
      · exact ih h
      · rw [trimStr_strip, Res.bind_ok] at h
        simp only [Res.ok.injEq, Prod.mk.injEq] at h
        rw [← h.1]
        exact strip_is_trimmed u
    | _ => rw [h1] at h; simp at h

theorem loaded_clear {P : Str → Prop} {n : PN} (h : Loaded P n) : n.clear = n := by
  induction h with
  | leaf _ => simp [PN.clear, PN.clearAll]
  | @node cs _ _ ih =>
    rw [PN.clear]
    congr 1
    induction cs with
    | nil => rfl
    | cons kn cs ih2 =>
      obtain ⟨k, n⟩ := kn
      rw [PN.clearAll, ih (k, n) (by simp)]
      congr 1
      exact ih2 (fun x hx => by rename_i h _; exact h x (by simp [hx])) (fun x hx => by rename_i _ h; exact h x (by simp [hx])) (fun x hx => ih x (by simp [hx]))

theorem loaded_clearAll {P : Str → Prop} {cs : List (Str × PN)} (h : ∀ kn ∈ cs, Loaded P kn.2) : PN.clearAll cs = cs := by
  induction cs with
  | nil => rfl
  | cons kn cs ih =>
    obtain ⟨k, n⟩ := kn
    rw [PN.clearAll, loaded_clear (h (k, n) (by simp)), ih (fun x hx => h x (by simp [hx]))]

theorem loaded_printable {n : PN} (h : Loaded Trimmed n) (hc : AllText Clean n) : PrintableTree n := by
  induction h with
  | leaf hv =>
    cases hc with
    | mk h1 _ _ => exact .leaf ⟨h1.1, hv, h1.2⟩
  | @node cs hk hn ih =>
    cases hc with
    | mk h1 h2 h3 =>
      by_cases he : cs = []
      · subst he
        exact .leaf ⟨h1.1, by decide, h1.2⟩
      · exact .node he (fun kn hkn => ⟨⟨(h2 kn hkn).1, (hk kn hkn).1, (h2 kn hkn).2⟩, (hk kn hkn).2⟩)
          (fun kn hkn => ih kn hkn (h3 kn hkn))

theorem rewrite_clean {doc : Str} {n : PN} (h : parseProp doc = .ok n) (hc : AllText Clean n) :
    parseProp (savedProp true n) = .ok n := by
  obtain ⟨cs, rfl, hk, hn⟩ := parse_loaded (S := fun _ => True) (P := Trimmed)
    (fun s t s' _ h => ⟨getPropTokenN_trimmed _ h, trivial⟩) trivial h
  cases hc with
  | mk h1 h2 h3 =>
    have := parseProp_written (a := false) (cs := cs)
      (fun kn hkn => ⟨⟨(h2 kn hkn).1, (hk kn hkn).1, (h2 kn hkn).2⟩, (hk kn hkn).2⟩)
      (fun kn hkn => loaded_printable (hn kn hkn) (h3 kn hkn))
    rw [loaded_clearAll hn] at this
    exact this

/-! ### Documents without quotes -/

/-- A stream of 7-bit characters without quotes. -/
structure NoQuotes (s : CharStream) : Prop where
  delims : s.delims = propDelims
  chars : ∀ c ∈ s.rest, c.toNat < 128 ∧ c ≠ 34 ∧ c ≠ 39

/-- What a token of such a stream is made of. -/
def Tok (t : Str) : Prop := Sign t ∨ t = b!"%" ∨ ∀ c ∈ t, 1 ≤ c.toNat ∧ c.toNat ≤ 127 ∧ ¬ Special c

theorem strchr_quotes {c : Byte} (h : c ≠ 34 ∧ c ≠ 39) (h0 : c ≠ 0) : strchr propQuotes c = false :=
  strchr_false.2 ⟨h0, by simp [propQuotes, h.1, h.2]⟩

theorem tokenLoop_noQuotes (n : Nat) : ∀ {pend rest t r : Str}, (∀ c ∈ rest, c.toNat < 128 ∧ c ≠ 34 ∧ c ≠ 39) →
    (∀ c ∈ pend, 1 ≤ c.toNat ∧ c.toNat ≤ 127 ∧ ¬ Special c) →
    tokenLoop propDelims propOperators propQuotes n [] pend rest = .ok (t, r) → Tok t ∧ ∀ c ∈ r, c ∈ rest := by
  induction n with
  | zero => intro pend rest t r _ _ h; simp [tokenLoop] at h
  | succ n ih =>
    intro pend rest t r hr hp h
    cases rest with
    | nil =>
      simp [tokenLoop] at h
      obtain ⟨rfl, rfl⟩ := h
      exact ⟨Or.inr (Or.inr hp), by simp⟩
    | cons c cs =>
      have hc := hr c (by simp)
      cases h1 : strchr propDelims c with
      | true =>
        rw [tokenLoop_delim h1] at h
        simp at h
        obtain ⟨rfl, rfl⟩ := h
        exact ⟨Or.inr (Or.inr hp), by simp⟩
      | false =>
        have h0 : c ≠ 0 := (strchr_false.1 h1).1
        have hd := (strchr_false.1 h1).2
        have h2 := strchr_quotes hc.2 h0
        cases h3 : strchr propOperators c with
        | true =>
          rw [tokenLoop_op h1 h2 h3] at h
          split at h
          · simp at h
            obtain ⟨rfl, rfl⟩ := h
            refine ⟨?_, fun x hx => by simp [hx]⟩
            rcases strchr_iff.1 h3 with h3 | h3
            · exact absurd h3 h0
            · simp [propOperators] at h3
              rcases h3 with rfl | rfl | rfl | rfl
              · exact Or.inl (by decide)
              · exact Or.inl (by decide)
              · exact Or.inl (by decide)
              · exact Or.inr (Or.inl rfl)
          · simp at h
            obtain ⟨rfl, rfl⟩ := h
            exact ⟨Or.inr (Or.inr hp), by simp⟩
        | false =>
          rw [tokenLoop_plain h1 h2 h3] at h
          have ho := (strchr_false.1 h3).2
          have hn0 : c.toNat ≠ 0 := fun h => h0 (UInt8.toNat_inj.1 (by simpa using h))
          obtain ⟨k1, k2⟩ := ih (fun x hx => hr x (by simp [hx])) (by
            intro x hx
            rcases List.mem_append.1 hx with hx | hx
            · exact hp x hx
            · simp at hx
              subst hx
              refine ⟨by omega, by omega, ?_⟩
              simp [propOperators] at ho
              simp [propDelims] at hd
              simp only [Special, not_or]
              exact ⟨ho.1, ho.2.1, ho.2.2.1, ho.2.2.2, hd.2.2.2.2, hc.2.2⟩) h
          exact ⟨k1, fun x hx => by simp [k2 x hx]⟩

theorem NoQuotes.forward {s s' : CharStream} (h : NoQuotes s) (hf : Forward s s') : NoQuotes s' := by
  obtain ⟨⟨u, hu⟩, -, -, hd⟩ := hf
  exact ⟨by rw [hd, h.delims], fun c hc => h.chars c (by rw [hu]; simp [hc])⟩

theorem getToken_noQuotes {s s' : CharStream} {t : Str} (hs : NoQuotes s)
    (h : s.getToken propOperators propQuotes = .ok (t, s')) : Tok t ∧ NoQuotes s' := by
  unfold getToken getTokenN at h
  split at h
  · cases hl : tokenLoop s.delims propOperators propQuotes (s.rest.length + 2) [] [] s.rest with
    | ok r =>
      obtain ⟨t', r⟩ := r
      rw [hl, Res.bind_ok] at h
      simp only [Res.ok.injEq, Prod.mk.injEq] at h
      obtain ⟨rfl, rfl⟩ := h
      rw [hs.delims] at hl
      obtain ⟨h1, h2⟩ := tokenLoop_noQuotes _ hs.chars (by simp) hl
      have h3 : NoQuotes { s with rest := r } := ⟨hs.delims, fun c hc => hs.chars c (h2 c hc)⟩
      exact ⟨h1, h3.forward (skipDelims_spec _).1⟩
    | _ => rw [hl] at h; simp at h
  · simp only [Res.ok.injEq, Prod.mk.injEq] at h
    obtain ⟨rfl, rfl⟩ := h
    exact ⟨Or.inr (Or.inr (by simp)), hs.forward (skipDelims_spec _).1⟩

theorem getLine_noQuotes {s : CharStream} (hs : NoQuotes s) : NoQuotes s.getLine.2 := by
  have key : ∀ k, NoQuotes (s.processEnd k) := by
    intro k
    simp only [processEnd]
    split
    · exact ⟨hs.delims, hs.chars⟩
    · have h3 : NoQuotes { s with rest := s.rest.drop k } :=
        ⟨hs.delims, fun c hc => hs.chars c (List.mem_of_mem_drop hc)⟩
      exact h3.forward (skipDelims_spec _).1
  exact key _

theorem strip_mem {t : Str} {c : Byte} (h : c ∈ strip t) : c ∈ t := by
  obtain ⟨a, b, hab, -⟩ := strip_isTrim t
  rw [hab]; simp [h]

theorem getPropTokenN_noQuotes (n : Nat) : ∀ {s t s'}, NoQuotes s → getPropTokenN n s = .ok (t, s') →
    (Trimmed t ∧ (Clean t ∨ Sign t)) ∧ NoQuotes s' := by
  induction n with
  | zero => intro s t s' _ h; simp [getPropTokenN] at h
  | succ n ih =>
    intro s t s' hs h
    have htr := getPropTokenN_trimmed _ h
    rw [getPropTokenN] at h
    cases h1 : s.getToken propOperators propQuotes with
    | ok r =>
      obtain ⟨u, s1⟩ := r
      obtain ⟨hu, hs1⟩ := getToken_noQuotes hs h1
      rw [h1, Res.bind_ok] at h
      dsimp only at h
      split at h
      · exact ih (getLine_noQuotes hs1) h
      · next hne =>
        rw [trimStr_strip, Res.bind_ok] at h
        simp only [Res.ok.injEq, Prod.mk.injEq] at h
        obtain ⟨rfl, rfl⟩ := h
        refine ⟨⟨htr, ?_⟩, hs1⟩
        rcases hu with hu | hu | hu
        · right
          rcases hu with rfl | rfl | rfl <;> decide
        · exact absurd hu hne
        · left
          refine ⟨fun c hc => ?_, Or.inr fun c hc => (hu c (strip_mem hc)).2.2⟩
          have := hu c (strip_mem hc)
          exact ⟨this.1, this.2.1⟩
    | _ => rw [h1] at h; simp at h

theorem init_noQuotes {buf : Str} (h : ∀ c ∈ buf, c.toNat < 128 ∧ c ≠ 34 ∧ c ≠ 39) : NoQuotes (init buf propDelims) :=
  NoQuotes.forward (s := { rest := buf, delims := propDelims }) ⟨rfl, h⟩ (skipDelims_spec _).1

theorem loaded_noQuotes {n : PN} (h : Loaded (fun t => Trimmed t ∧ (Clean t ∨ Sign t)) n) :
    AllText (fun t => Clean t ∨ Sign t) n := by
  induction h with
  | leaf hv => exact .mk hv.2 (by simp) (by simp)
  | node hk _ ih => exact .mk (Or.inl (by decide)) (fun kn hkn => (hk kn hkn).1.2) ih

theorem letter_not_sign {t : Str} (h : ∃ c ∈ t.head?, IsLetter c) : ¬ Sign t := by
  obtain ⟨c, hc, hl⟩ := h
  rintro (rfl | rfl | rfl) <;> simp at hc <;> subst hc <;> revert hl <;> decide

theorem parse_noQuotes {doc : Str} {n : PN} (hd : ∀ c ∈ cstr doc, c.toNat < 128 ∧ c ≠ 34 ∧ c ≠ 39)
    (h : parseProp doc = .ok n) : AllText (fun t => Clean t ∨ Sign t) n := by
  obtain ⟨cs, rfl, hk, hn⟩ := parse_loaded (S := NoQuotes) (P := fun t => Trimmed t ∧ (Clean t ∨ Sign t))
    (fun s t s' hs h => getPropTokenN_noQuotes _ hs h) (init_noQuotes hd) h
  exact .mk (Or.inl (by decide)) (fun kn hkn => (hk kn hkn).1.2) (fun kn hkn => loaded_noQuotes (hn kn hkn))

theorem allText_mono {P Q : Str → Prop} {n : PN} (h : AllText P n) (hpq : AllText (fun t => P t → Q t) n) : AllText Q n := by
  induction h with
  | mk h1 h2 _ ih =>
    cases hpq with
    | mk g1 g2 g3 => exact .mk (g1 h1) (fun kn hkn => g2 kn hkn (h2 kn hkn)) (fun kn hkn => ih kn hkn (g3 kn hkn))

/-! ### Which values survive -/

/-- A string is copied character by character behind what was there already. -/
theorem quoteLoop_prefix (q : Byte) (n : Nat) : ∀ {s rest : Str} {r : Str × Str}, quoteLoop q n s rest = .ok r → s <+: r.1 := by
  induction n with
  | zero => intro s rest r h; simp [quoteLoop] at h
  | succ n ih =>
    intro s rest r h
    cases rest with
    | nil => simp [quoteLoop] at h; subst h; exact List.prefix_rfl
    | cons c cs =>
      by_cases h1 : c = q
      · subst h1
        rw [quoteLoop_close] at h
        simp at h; subst h; exact List.prefix_rfl
      · by_cases h2 : c = 92
        · subst h2
          unfold quoteLoop at h
          rw [if_neg h1, if_pos rfl] at h
          obtain ⟨⟨ch, len⟩, _, h4⟩ := Res.bind_eq_ok.1 h
          dsimp only at h4
          split at h4
          · simp at h4
          · exact (List.prefix_append s [ch]).trans (ih h4)
        · rw [quoteLoop_char h1 h2] at h
          exact (List.prefix_append s [c]).trans (ih h)

theorem tokenLoop_prefix (d o q : Str) (n : Nat) : ∀ {s pend rest : Str} {r : Str × Str}, s ≠ [] →
    tokenLoop d o q n s pend rest = .ok r → s <+: r.1 := by
  induction n with
  | zero => intro s pend rest r _ h; simp [tokenLoop] at h
  | succ n ih =>
    intro s pend rest r hs h
    cases rest with
    | nil => simp [tokenLoop] at h; subst h; exact List.prefix_append _ _
    | cons c cs =>
      cases h1 : strchr d c with
      | true => rw [tokenLoop_delim h1] at h; simp at h; subst h; exact List.prefix_append _ _
      | false =>
        cases h2 : strchr q c with
        | true =>
          rw [tokenLoop_quote h1 h2] at h
          obtain ⟨⟨s', r'⟩, h3, h4⟩ := Res.bind_eq_ok.1 h
          have hp := quoteLoop_prefix c n h3
          dsimp only at h4 hp
          split at h4
          · simp at h4; subst h4; exact hp
          · refine hp.trans (ih ?_ h4)
            rintro rfl
            exact hs (List.prefix_nil.1 hp)
        | false =>
          cases h3 : strchr o c with
          | true =>
            rw [tokenLoop_op h1 h2 h3, if_neg (by simp [hs])] at h
            simp at h; subst h; exact List.prefix_append _ _
          | false =>
            rw [tokenLoop_plain h1 h2 h3] at h
            exact ih hs h

/-- The characters of a quoted string up to the first one that is lost. -/
theorem quoteLoop_quoted_prefix {a : Str} (ha : Ascii a) {c : Byte} (hc : ¬ (1 ≤ c.toNat ∧ c.toNat ≤ 127)) {rest : Str} (n : Nat) :
    ∀ {acc : Str} {r : Str × Str}, quoteLoop 34 n acc (a.flatMap quoteChar ++ (quoteChar c ++ rest)) = .ok r →
      acc ++ a ++ [63] <+: r.1 := by
  induction a generalizing n with
  | nil =>
    intro acc r h
    cases n with
    | zero => simp [quoteLoop] at h
    | succ n =>
      simp only [List.flatMap_nil, List.nil_append] at h
      have key : ∃ tl, quoteLoop 34 (n + 1) acc (quoteChar c ++ rest) = quoteLoop 34 n (acc ++ [63]) tl := by
        cases quoteCase c with
        | plain _ _ _ _ _ => omega
        | esc d _ _ _ _ => omega
        | oct d1 d2 d3 hq h1 h2 h3 hv hlt =>
          refine ⟨rest, ?_⟩
          rw [hq]
          have hd := decodeChar_oct rest h1 h2 h3
          simp only [hv] at hd
          rw [if_neg (by omega)] at hd
          have := quoteLoop_esc (q := 34) (n := n) (s := acc) (cs := d1 :: d2 :: d3 :: rest) (by decide) hd (by simp)
          simpa using this
        | neg tl hq _ _ =>
          refine ⟨tl ++ rest, ?_⟩
          rw [hq]
          have hd : decodeChar (92 :: 51 :: 55 :: 55 :: (tl ++ rest)) = .ok (63, 4) :=
            decodeChar_oct (tl ++ rest) (by decide) (by decide) (by decide)
          have := quoteLoop_esc (q := 34) (n := n) (s := acc) (cs := 51 :: 55 :: 55 :: (tl ++ rest)) (by decide) hd (by simp)
          simpa using this
      obtain ⟨tl, e⟩ := key
      rw [e] at h
      simpa using quoteLoop_prefix 34 n h
  | cons x a ih =>
    intro acc r h
    cases n with
    | zero => simp [quoteLoop] at h
    | succ n =>
      rw [List.flatMap_cons, List.append_assoc, quoteLoop_quoteChar _ _ _ (ha x (by simp))] at h
      have := ih (fun y hy => ha y (by simp [hy])) n h
      simpa using this

theorem exists_bad {v : Str} (h : ¬ Ascii v) : ∃ a c b, v = a ++ c :: b ∧ Ascii a ∧ ¬ (1 ≤ c.toNat ∧ c.toNat ≤ 127) := by
  induction v with
  | nil => exact absurd (by simp [Ascii]) h
  | cons x v ih =>
    by_cases hx : 1 ≤ x.toNat ∧ x.toNat ≤ 127
    · obtain ⟨a, c, b, rfl, ha, hc⟩ := ih (fun hv => h (fun y hy => by
        rcases List.mem_cons.1 hy with rfl | hy
        · exact hx
        · exact hv y hy))
      refine ⟨x :: a, c, b, rfl, fun y hy => ?_, hc⟩
      rcases List.mem_cons.1 hy with rfl | hy
      · exact hx
      · exact ha y hy
    · exact ⟨[], x, v, rfl, by simp [Ascii], hx⟩

/-- What the reader gets from a written value. -/
theorem getPropToken_eq {Y t v : Str} {c : Byte} {s : CharStream} (hc : strchr propDelims c = false)
    (h : getPropToken (pinit (c :: Y)) = .ok (v, s)) :
    ∃ t r, tokenLoop propDelims propOperators propQuotes (Y.length + 3) [] [] (c :: Y) = .ok (t, r) ∧
      (t ≠ b!"%" → v = strip t) := by
  rw [pinit_cons hc, getPropToken, getPropTokenN] at h
  obtain ⟨⟨t, s1⟩, h1, h2⟩ := Res.bind_eq_ok.1 h
  unfold getToken getTokenN at h1
  rw [if_pos (show ({ rest := c :: Y, delims := propDelims } : CharStream).good = true from rfl)] at h1
  obtain ⟨⟨t', r⟩, h3, h4⟩ := Res.bind_eq_ok.1 h1
  simp only [Res.ok.injEq, Prod.mk.injEq] at h4
  obtain ⟨rfl, rfl⟩ := h4
  refine ⟨t', r, h3, fun hne => ?_⟩
  dsimp only at h2
  rw [if_neg hne, trimStr_strip, Res.bind_ok] at h2
  simp only [Res.ok.injEq, Prod.mk.injEq] at h2
  exact h2.1.symm

theorem strip_prefix {t : Str} (h : ∀ c ∈ t.head?, ¬ IsSpace c) : strip t <+: t := by
  obtain ⟨a, b, hab, ha, _⟩ := strip_isTrim t
  cases a with
  | nil => rw [List.nil_append] at hab; exact ⟨b, hab.symm⟩
  | cons x a =>
    rw [hab] at h
    exact absurd (ha x (by simp)) (h x (by simp))

theorem bad_lost {v R : Str} {s : CharStream} (h : getPropToken (pinit (32 :: (tryQuoted v ++ R))) = .ok (v, s)) : Ascii v := by
  refine Classical.byContradiction fun hv => ?_
  obtain ⟨a, c, b, rfl, ha, hc⟩ := exists_bad hv
  have htr := getPropTokenN_trimmed _ h
  have hq : needsQuotes (a ++ c :: b) = true := by
    simp only [needsQuotes, List.any_eq_true]
    refine ⟨c, by simp, ?_⟩
    simp only [Bool.or_eq_true, decide_eq_true_eq]
    left; left
    have := c.toNat_lt
    unfold schar
    split <;> omega
  have e : tryQuoted (a ++ c :: b) ++ R = 34 :: (a.flatMap quoteChar ++ (quoteChar c ++ (b.flatMap quoteChar ++ 34 :: R))) := by
    simp [tryQuoted, hq, quoted]
  rw [e] at h
  obtain ⟨t, r, h1, h2⟩ := getPropToken_eq (t := []) (by decide) h
  rw [tokenLoop_plain (by decide) (by decide) (by decide), tokenLoop_quote (by decide) (by decide)] at h1
  obtain ⟨⟨s', r'⟩, h3, h4⟩ := Res.bind_eq_ok.1 h1
  have hp := quoteLoop_quoted_prefix ha hc _ h3
  simp only [List.nil_append] at hp
  have hp : a ++ [63] <+: t := by
    dsimp only at h4
    split at h4
    · simp at h4; rw [← h4.1]; exact hp
    · refine hp.trans (tokenLoop_prefix _ _ _ _ ?_ h4)
      rintro rfl
      simp at hp
  obtain ⟨w, rfl⟩ := hp
  have hne : a ++ [63] ++ w ≠ b!"%" := by
    intro hh
    cases a with
    | nil => simp at hh
    | cons x a => simp at hh
  have h5 := h2 hne
  have h6 : strip (a ++ [63] ++ w) <+: a ++ [63] ++ w := by
    apply strip_prefix
    intro x hx
    cases a with
    | nil => simp at hx; subst hx; decide
    | cons y a => simp at hx; subst hx; exact htr.1 y (by simp)
  rw [← h5] at h6
  obtain ⟨z, hz⟩ := h6
  simp at hz
  rw [hz.1] at hc
  exact hc (by decide)

/-- Text without double quotes and backslashes gives no apostrophe. -/
theorem quoteLoop_noApos (n : Nat) : ∀ {s rest : Str} {r : Str × Str}, (∀ c ∈ rest, c ≠ 34 ∧ c ≠ 92) → (39 : Byte) ∉ s →
    quoteLoop 39 n s rest = .ok r → (39 : Byte) ∉ r.1 ∧ ∀ c ∈ r.2, c ∈ rest := by
  induction n with
  | zero => intro s rest r _ _ h; simp [quoteLoop] at h
  | succ n ih =>
    intro s rest r hr hs h
    cases rest with
    | nil => simp [quoteLoop] at h; subst h; exact ⟨hs, by simp⟩
    | cons c cs =>
      by_cases h1 : c = 39
      · subst h1
        rw [quoteLoop_close] at h
        simp at h; subst h
        exact ⟨hs, fun c hc => by simp at hc ⊢; simp [hc]⟩
      · rw [quoteLoop_char h1 (hr c (by simp)).2] at h
        obtain ⟨k1, k2⟩ := ih (fun x hx => hr x (by simp [hx])) (by simp [hs]; exact fun h => h1 h.symm) h
        exact ⟨k1, fun x hx => by simp [k2 x hx]⟩

theorem tokenLoop_noApos (n : Nat) : ∀ {s pend rest : Str} {r : Str × Str}, (∀ c ∈ rest, c ≠ 34 ∧ c ≠ 92) → (39 : Byte) ∉ s →
    (39 : Byte) ∉ pend → tokenLoop propDelims propOperators propQuotes n s pend rest = .ok r →
    (39 : Byte) ∉ r.1 ∧ ∀ c ∈ r.2, c ∈ rest := by
  induction n with
  | zero => intro s pend rest r _ _ _ h; simp [tokenLoop] at h
  | succ n ih =>
    intro s pend rest r hr hs hp h
    cases rest with
    | nil => simp [tokenLoop] at h; subst h; simp [hs, hp]
    | cons c cs =>
      have hcs : ∀ x ∈ cs, x ≠ 34 ∧ x ≠ 92 := fun x hx => hr x (by simp [hx])
      cases h1 : strchr propDelims c with
      | true => rw [tokenLoop_delim h1] at h; simp at h; subst h; simp [hs, hp]
      | false =>
        cases h2 : strchr propQuotes c with
        | true =>
          have hc : c = 39 := by
            rcases strchr_iff.1 h2 with h0 | h0
            · exact absurd h0 (strchr_false.1 h1).1
            · simp [propQuotes] at h0
              exact h0.resolve_left (hr c (by simp)).1
          subst hc
          rw [tokenLoop_quote h1 h2] at h
          obtain ⟨⟨s', r'⟩, h3, h4⟩ := Res.bind_eq_ok.1 h
          obtain ⟨k1, k2⟩ := quoteLoop_noApos n hcs hs h3
          dsimp only at h4 k1 k2
          split at h4
          · simp at h4; subst h4; exact ⟨k1, by simp⟩
          · obtain ⟨g1, g2⟩ := ih (fun x hx => hcs x (k2 x hx)) k1 (by simp) h4
            exact ⟨g1, fun x hx => by simp [k2 x (g2 x hx)]⟩
        | false =>
          cases h3 : strchr propOperators c with
          | true =>
            have hne : (39 : Byte) ≠ c := by rintro rfl; revert h2; decide
            rw [tokenLoop_op h1 h2 h3] at h
            split at h
            · simp at h; subst h
              exact ⟨by simpa using hne, fun x hx => by simp at hx ⊢; simp [hx]⟩
            · simp at h; subst h; simp [hs, hp]
          | false =>
            have hne : (39 : Byte) ≠ c := by rintro rfl; revert h2; decide
            rw [tokenLoop_plain h1 h2 h3] at h
            obtain ⟨k1, k2⟩ := ih hcs hs (by simp [hp, hne]) h
            exact ⟨k1, fun x hx => by simp [k2 x hx]⟩

/-- A stream without double quotes and backslashes. -/
structure NoEsc (s : CharStream) : Prop where
  delims : s.delims = propDelims
  chars : ∀ c ∈ s.rest, c ≠ 34 ∧ c ≠ 92

theorem NoEsc.forward {s s' : CharStream} (h : NoEsc s) (hf : Forward s s') : NoEsc s' := by
  obtain ⟨⟨u, hu⟩, -, -, hd⟩ := hf
  exact ⟨by rw [hd, h.delims], fun c hc => h.chars c (by rw [hu]; simp [hc])⟩

theorem getPropTokenN_noApos (n : Nat) : ∀ {s t s'}, NoEsc s → getPropTokenN n s = .ok (t, s') → (39 : Byte) ∉ t := by
  induction n with
  | zero => intro s t s' _ h; simp [getPropTokenN] at h
  | succ n ih =>
    intro s t s' hs h
    rw [getPropTokenN] at h
    obtain ⟨⟨u, s1⟩, h1, h⟩ := Res.bind_eq_ok.1 h
    have key : (39 : Byte) ∉ u ∧ NoEsc s1 := by
      unfold getToken getTokenN at h1
      split at h1
      · obtain ⟨⟨t', r⟩, h3, h4⟩ := Res.bind_eq_ok.1 h1
        simp only [Res.ok.injEq, Prod.mk.injEq] at h4
        obtain ⟨rfl, rfl⟩ := h4
        rw [hs.delims] at h3
        obtain ⟨k1, k2⟩ := tokenLoop_noApos _ hs.chars (by simp) (by simp) h3
        have h3 : NoEsc { s with rest := r } := ⟨hs.delims, fun c hc => hs.chars c (k2 c hc)⟩
        exact ⟨k1, h3.forward (skipDelims_spec _).1⟩
      · simp only [Res.ok.injEq, Prod.mk.injEq] at h1
        obtain ⟨rfl, rfl⟩ := h1
        exact ⟨by simp, hs.forward (skipDelims_spec _).1⟩
    dsimp only at h
    split at h
    · refine ih ?_ h
      simp only [getLine, processEnd]
      split
      · exact ⟨key.2.delims, key.2.chars⟩
      · have h3 : ∀ k, NoEsc { s1 with rest := s1.rest.drop k } :=
          fun k => ⟨key.2.delims, fun c hc => key.2.chars c (List.mem_of_mem_drop hc)⟩
        exact (h3 _).forward (skipDelims_spec _).1
    · rw [trimStr_strip, Res.bind_ok] at h
      simp only [Res.ok.injEq, Prod.mk.injEq] at h
      rw [← h.1]
      exact fun hm => key.1 (strip_mem hm)

/-- A value that is read back from the line it is written on is printable. -/
theorem value_survives {v : Str} {s : CharStream}
    (h : getPropToken (pinit (32 :: (tryQuoted v ++ b!"\n"))) = .ok (v, s)) : Printable v := by
  have ha := bad_lost h
  have htr := getPropTokenN_trimmed _ h
  refine ⟨ha, htr, ?_⟩
  by_cases hq : needsQuotes v = true
  · exact Or.inl ((needsQuotes_iff ha).1 hq)
  · right
    have hnf : ∀ c ∈ v, ¬ ForcesQuotes c := fun c hc hf => hq ((needsQuotes_iff ha).2 ⟨c, hc, hf⟩)
    have e : tryQuoted v = v := by simp [tryQuoted, hq]
    rw [e] at h
    have hch : ∀ c ∈ 32 :: (v ++ b!"\n"), c ≠ 34 ∧ c ≠ 92 := by
      intro c hc
      simp only [List.mem_cons, List.mem_append, List.not_mem_nil, or_false] at hc
      rcases hc with rfl | hc | rfl
      · decide
      · have := hnf c hc
        simp only [ForcesQuotes, not_or] at this
        exact this.2
      · decide
    have h39 : (39 : Byte) ∉ v := getPropTokenN_noApos _
      (NoEsc.forward (s := { rest := 32 :: (v ++ b!"\n"), delims := propDelims }) ⟨rfl, hch⟩ (skipDelims_spec _).1) h
    have hn : NoQuotes (pinit (32 :: (v ++ b!"\n"))) := init_noQuotes (by
      intro c hc
      refine ⟨?_, (hch c hc).1, ?_⟩
      · simp only [List.mem_cons, List.mem_append, List.not_mem_nil, or_false] at hc
        rcases hc with rfl | hc | rfl
        · decide
        · have := ha c hc; omega
        · decide
      · rintro rfl
        simp only [List.mem_cons, List.mem_append, List.not_mem_nil, or_false] at hc
        rcases hc with hc | hc | hc
        · revert hc; decide
        · exact h39 hc
        · revert hc; decide)
    rcases (getPropTokenN_noQuotes _ hn h).1.2 with hc | hc
    · rcases hc.2 with ⟨c, hc, hf⟩ | hc
      · exact absurd hf (hnf c hc)
      · exact hc
    · exfalso
      have h61 : getPropToken (pinit [32, 61, 10]) = .ok ([], pinit [61, 10]) := by decide
      have h123 : getPropToken (pinit [32, 123, 10]) = .ok ([], pinit [123, 10]) := by decide
      have h125 : getPropToken (pinit [32, 125, 10]) = .ok ([], pinit [125, 10]) := by decide
      rcases hc with rfl | rfl | rfl
      · have := h61.symm.trans h; simp at this
      · have := h123.symm.trans h; simp at this
      · have := h125.symm.trans h; simp at this

theorem savedProp_leaf {k v : Str} : savedProp true (.mk false [] [(k, .leaf v)]) =
    tryQuoted k ++ b!" =" ++ (32 :: ((if v = [] then b!"\"\"" else tryQuoted v) ++ b!"\n")) := by
  cases v <;> simp [savedProp, PN.leaf, PN.children, writeNodes, writeNode, writeValue, PN.hasValue, PN.empty, PN.value,
    newlineStr, indentStr]

theorem quoteChar_no_zero : ∀ c : Byte, (0 : Byte) ∉ quoteChar c := by
  apply forall_byte
  decide +kernel

theorem tryQuoted_no_zero (s : Str) : ∀ c ∈ tryQuoted s, c ≠ 0 := by
  intro c hc
  unfold tryQuoted at hc
  split at hc
  · simp only [quoted, List.mem_append, List.mem_flatMap, List.mem_cons, List.not_mem_nil, or_false] at hc
    rcases hc with (rfl | ⟨a, _, hc⟩) | rfl
    · decide
    · rintro rfl; exact quoteChar_no_zero a hc
    · decide
  · next hq =>
    rintro rfl
    apply hq
    simp only [needsQuotes, List.any_eq_true]
    exact ⟨0, hc, by decide⟩

theorem leaf_survives {k v : Str} (hk : PrintableKey k)
    (h : parseProp (savedProp true (.mk false [] [(k, .leaf v)])) = .ok (.mk false [] [(k, .leaf v)])) : Printable v := by
  by_cases hv : v = []
  · subst hv; decide
  obtain ⟨hvalid, hne, _⟩ := isValidLabel_key hk
  have hz : cstr (savedProp true (.mk false [] [(k, .leaf v)])) = savedProp true (.mk false [] [(k, .leaf v)]) := by
    apply cstr_of_ne_zero
    rw [savedProp_leaf, if_neg hv]
    intro c hc
    simp only [List.mem_append, List.mem_cons, List.not_mem_nil, or_false] at hc
    rcases hc with (hc | rfl | rfl) | rfl | hc | rfl
    · exact tryQuoted_no_zero k c hc
    · decide
    · decide
    · decide
    · exact tryQuoted_no_zero v c hc
    · decide
  rw [parseProp, ofCStr, hz, savedProp_leaf, if_neg hv] at h
  have h1 := tok_label_assign (dl := []) (k := k) (R := 32 :: (tryQuoted v ++ b!"\n")) (by simp) hk.1 hne
  have h2 := tok_op (dl := []) (R := 32 :: (tryQuoted v ++ b!"\n")) (op := 61) (by simp) (by simp)
  rw [List.nil_append] at h1 h2
  rw [parseStream, h1, Res.bind_ok] at h
  obtain ⟨cs, h3, h4⟩ := Res.bind_eq_ok.1 h
  simp only [Res.ok.injEq, PN.mk.injEq, true_and] at h4
  subst h4
  rw [parseLoop, hvalid, Res.bind_ok, if_pos rfl] at h3
  obtain ⟨⟨nd, s1⟩, h5, h6⟩ := Res.bind_eq_ok.1 h3
  obtain ⟨⟨t', s2⟩, h7, h8⟩ := Res.bind_eq_ok.1 h6
  obtain ⟨rest, h9, h10⟩ := Res.bind_eq_ok.1 h8
  simp only [Res.ok.injEq, List.cons.injEq, Prod.mk.injEq, true_and] at h10
  rw [readNode, h2, Res.bind_ok] at h5
  dsimp only at h5
  rw [if_pos rfl] at h5
  obtain ⟨⟨w, s3⟩, h11, h12⟩ := Res.bind_eq_ok.1 h5
  simp only [Res.ok.injEq, Prod.mk.injEq] at h12
  rw [← h12.1] at h10
  simp only [PN.leaf, PN.mk.injEq, and_true, true_and] at h10
  rw [h10.1] at h11
  exact value_survives h11
