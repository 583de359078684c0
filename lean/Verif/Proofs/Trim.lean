import Verif.Proofs.StringLemmas
import Verif.Spec.Strings

/-! # Lemmas about trimming and splitting -/

namespace Flut

open Spec

/-- The character-set predicate of the model, in words. -/
theorem inSet_iff {set : Str} {c : Byte} : inSet set c = true ↔ c ∈ cstr set := by
  simp [inSet]

theorem inSet_false {set : Str} {c : Byte} : inSet set c = false ↔ c ∉ cstr set := by
  simp [inSet]

theorem isTrim_unique {p : Byte → Prop} {s r₁ r₂ : Str} (h₁ : IsTrim p s r₁) (h₂ : IsTrim p s r₂) :
    r₁ = r₂ := by
  obtain ⟨a, b, rfl, ha, hb, hh, hl⟩ := h₁
  obtain ⟨a', b', e, ha', hb', hh', hl'⟩ := h₂
  -- the two prefixes agree unless everything is trimmed
  have key : ∀ (a a' r r' b b' : Str), a ++ r ++ b = a' ++ r' ++ b' → (∀ c ∈ a, p c) → (∀ c ∈ b, p c) →
      (∀ c ∈ a', p c) → (∀ c ∈ b', p c) → (∀ c ∈ r.head?, ¬ p c) → (∀ c ∈ r'.head?, ¬ p c) →
      r = [] ∧ r' = [] ∨ (r ≠ [] ∧ r' ≠ [] ∧ a = a') := by
    intro a
    induction a with
    | nil =>
      intro a' r r' b b' e _ hb ha' hb' hh hh'
      cases r with
      | nil =>
        left
        refine ⟨rfl, ?_⟩
        cases r' with
        | nil => rfl
        | cons x xs =>
          exfalso
          apply hh' x (by simp)
          apply hb x
          have : b = a' ++ (x :: xs) ++ b' := by simpa using e
          rw [this]; simp
      | cons x xs =>
        right
        cases a' with
        | nil =>
          cases r' with
          | nil =>
            exfalso
            apply hh x (by simp)
            apply hb' x
            have : b' = x :: xs ++ b := by simpa using e.symm
            rw [this]; simp
          | cons y ys => simp
        | cons y ys =>
          exfalso
          simp at e
          apply hh x (by simp)
          rw [e.1]; exact ha' y (by simp)
    | cons x xs ih =>
      intro a' r r' b b' e ha hb ha' hb' hh hh'
      cases a' with
      | nil =>
        cases r' with
        | nil =>
          left
          cases r with
          | nil => simp
          | cons y ys =>
            exfalso
            apply hh y (by simp)
            apply hb' y
            have : b' = x :: xs ++ (y :: ys) ++ b := by simpa using e.symm
            rw [this]; simp
        | cons y ys =>
          exfalso
          simp at e
          apply hh' y (by simp)
          rw [← e.1]; exact ha x (by simp)
      | cons y ys =>
        simp only [List.cons_append, List.cons.injEq] at e
        have := ih ys r r' b b' e.2 (fun c hc => ha c (by simp [hc])) hb
          (fun c hc => ha' c (by simp [hc])) hb' hh hh'
        rcases this with h | ⟨h1, h2, h3⟩
        · exact Or.inl h
        · exact Or.inr ⟨h1, h2, by rw [e.1, h3]⟩
  rcases key a a' r₁ r₂ b b' e ha hb ha' hb' hh hh' with ⟨h1, h2⟩ | ⟨h1, h2, h3⟩
  · rw [h1, h2]
  · subst h3
    have e2 : r₁ ++ b = r₂ ++ b' := by simpa using e
    have e3 : b.reverse ++ r₁.reverse ++ [] = b'.reverse ++ r₂.reverse ++ [] := by
      have := congrArg List.reverse e2
      simpa using this
    have := key b.reverse b'.reverse r₁.reverse r₂.reverse [] [] e3 (by simpa using hb) (by simp)
      (by simpa using hb') (by simp) (by simpa using hl) (by simpa using hl')
    rcases this with ⟨h4, h5⟩ | ⟨_, _, h4⟩
    · simp at h4; exact absurd h4 h1
    · have hb : b = b' := by simpa using h4
      subst hb
      simpa using e2

theorem trimStr_isTrim (s chars : Str) :
    ∃ r, trimStr s chars = .ok r ∧ IsTrim (· ∈ cstr chars) s r := by
  rcases exists_trim_split (inSet chars) s with h | ⟨a, r, b, rfl, ha, hb, hr, hh, hl⟩
  · refine ⟨[], ?_, s, [], by simp, fun c hc => inSet_iff.1 (h c hc), by simp, by simp, by simp⟩
    have : findFirst (fun c => !inSet chars c) s = none :=
      findFirst_eq_none.2 (fun c hc => by simp [h c hc])
    simp [trimStr, this]
  · refine ⟨r, ?_, a, b, by simp, fun c hc => inSet_iff.1 (ha c hc), fun c hc => inSet_iff.1 (hb c hc),
      fun c hc => inSet_false.1 (hh c hc), fun c hc => inSet_false.1 (hl c hc)⟩
    have h1 : findFirst (fun c => !inSet chars c) (a ++ (r ++ b)) = some a.length := by
      cases r with
      | nil => simp at hr
      | cons x xs =>
        exact findFirst_append_cons (by simp [hh x (by simp)]) (fun d hd => by simp [ha d hd])
    obtain ⟨r', x, rfl⟩ : ∃ r' x, r = r' ++ [x] := ⟨r.dropLast, r.getLast hr, (List.dropLast_concat_getLast hr).symm⟩
    have h2 : findLast (fun c => !inSet chars c) (a ++ (r' ++ [x] ++ b)) = some (a ++ r').length := by
      have e : a ++ (r' ++ [x] ++ b) = (a ++ r') ++ x :: b := by simp
      rw [e]
      exact findLast_append_cons (by simp [hl x (by simp)]) (fun d hd => by simp [hb d hd])
    have h3 : (a ++ r').length + 1 = a.length + (r' ++ [x]).length := by
      simp only [List.length_append, List.length_cons, List.length_nil]; omega
    simp only [trimStr, h1, h2, succWrap, h3, countSub_add]
    exact substr_append_take

theorem trimRightStr_isTrim (s chars : Str) :
    ∃ r, trimRightStr s chars = .ok r ∧ IsTrimRight (· ∈ cstr chars) s r := by
  cases h : findLast (fun c => !inSet chars c) s with
  | none =>
    refine ⟨[], by simp [trimRightStr, h, succWrap, substr_zero], s, by simp, ?_, by simp⟩
    intro c hc
    have := findLast_eq_none.1 h c hc
    exact inSet_iff.1 (by simpa using this)
  | some i =>
    obtain ⟨pre, c, post, rfl, rfl, hc, hp⟩ := findLast_eq_some.1 h
    refine ⟨pre ++ [c], ?_, post, by simp, ?_, ?_⟩
    · simp only [trimRightStr, h, succWrap, substr_zero]
      have e : pre ++ c :: post = (pre ++ [c]) ++ post := by simp
      rw [e, List.take_append_of_le_length (by simp), List.take_of_length_le (by simp)]
    · intro d hd; exact inSet_iff.1 (by simpa using hp d hd)
    · intro d hd
      simp at hd; subst hd
      exact inSet_false.1 (by simpa using hc)

theorem isTrimRight_unique {p : Byte → Prop} {s r₁ r₂ : Str} (h₁ : IsTrimRight p s r₁)
    (h₂ : IsTrimRight p s r₂) : r₁ = r₂ := by
  obtain ⟨b, rfl, hb, hl⟩ := h₁
  obtain ⟨b', e, hb', hl'⟩ := h₂
  rcases List.append_eq_append_iff.1 e with ⟨t, rfl, rfl⟩ | ⟨t, rfl, rfl⟩
  · cases ht : t.getLast? with
    | none => simp at ht; simp [ht]
    | some x =>
      exfalso
      apply hl' x (by simp [List.getLast?_append, ht])
      exact hb x (by simp [List.mem_of_getLast? ht])
  · cases ht : t.getLast? with
    | none => simp at ht; simp [ht]
    | some x =>
      exfalso
      apply hl x (by simp [List.getLast?_append, ht])
      exact hb' x (by simp [List.mem_of_getLast? ht])

/-- Trimming a string whose ends are not trim characters leaves it alone. -/
theorem trimStr_eq_self {s chars : Str} (h1 : ∀ c ∈ s.head?, c ∉ cstr chars)
    (h2 : ∀ c ∈ s.getLast?, c ∉ cstr chars) : trimStr s chars = .ok s := by
  obtain ⟨r, hr, ht⟩ := trimStr_isTrim s chars
  rw [hr, isTrim_unique ht ⟨[], [], by simp, by simp, by simp, h1, h2⟩]

theorem trimStr_eq {a s b chars : Str} (ha : ∀ c ∈ a, c ∈ cstr chars) (hb : ∀ c ∈ b, c ∈ cstr chars)
    (h1 : ∀ c ∈ s.head?, c ∉ cstr chars)
    (h2 : ∀ c ∈ s.getLast?, c ∉ cstr chars) : trimStr (a ++ s ++ b) chars = .ok s := by
  obtain ⟨r, hr, ht⟩ := trimStr_isTrim (a ++ s ++ b) chars
  rw [hr, isTrim_unique ht ⟨a, b, rfl, ha, hb, h1, h2⟩]

/-! ## Splitting -/

theorem pieces_unique {p : Byte → Prop} {s : Str} {ps qs : List Str} (h₁ : Pieces p s ps)
    (h₂ : Pieces p s qs) : ps = qs := by
  induction h₁ generalizing qs with
  | done hs =>
    rename_i s
    generalize hs' : s = s' at h₂
    cases h₂ with
    | done => rfl
    | @piece a r rest ps ha hr hnr _ _ =>
      exfalso
      cases r with
      | nil => simp at hr
      | cons x xs =>
        subst hs'
        exact hnr x (by simp) (hs x (by simp))
  | @piece a r rest ps ha hr hnr hrest hps ih =>
    generalize hs' : a ++ r ++ rest = s' at h₂
    cases h₂ with
    | done h =>
      exfalso
      cases r with
      | nil => simp at hr
      | cons x xs =>
        subst hs'
        exact hnr x (by simp) (h x (by simp))
    | @piece a' r' rest' ps' ha' hr' hnr' hrest' hps' =>
      have key : ∀ (a a' r r' rest rest' : Str), a ++ r ++ rest = a' ++ r' ++ rest' →
          (∀ c ∈ a, p c) → (∀ c ∈ a', p c) → r ≠ [] → r' ≠ [] → (∀ c ∈ r, ¬ p c) → (∀ c ∈ r', ¬ p c) →
          a = a' := by
        intro a
        induction a with
        | nil =>
          intro a' r r' rest rest' e _ h2 hr hr' hn hn'
          cases a' with
          | nil => rfl
          | cons y ys =>
            exfalso
            cases r with
            | nil => simp at hr
            | cons x xs =>
              simp at e
              exact hn x (by simp) (e.1 ▸ h2 y (by simp))
        | cons x xs ih =>
          intro a' r r' rest rest' e h1 h2 hr hr' hn hn'
          cases a' with
          | nil =>
            exfalso
            cases r' with
            | nil => simp at hr'
            | cons y ys =>
              simp at e
              exact hn' y (by simp) (e.1 ▸ h1 x (by simp))
          | cons y ys =>
            simp only [List.cons_append, List.cons.injEq] at e
            rw [e.1, ih ys r r' rest rest' e.2 (fun c hc => h1 c (by simp [hc]))
              (fun c hc => h2 c (by simp [hc])) hr hr' hn hn']
      have ea := key a a' r r' rest rest' hs' ha ha' hr hr' hnr hnr'
      subst ea
      have e2 : r ++ rest = r' ++ rest' := by simpa using hs'
      have er : r = r' ∧ rest = rest' := by
        rcases List.append_eq_append_iff.1 e2 with ⟨t, rfl, rfl⟩ | ⟨t, rfl, rfl⟩
        · cases t with
          | nil => simp
          | cons x xs => exact absurd (hrest x (by simp)) (hnr' x (by simp))
        · cases t with
          | nil => simp
          | cons x xs => exact absurd (hrest' x (by simp)) (hnr x (by simp))
      obtain ⟨rfl, rfl⟩ := er
      rw [ih hps']

theorem findFirst_ofs' {p : Byte → Bool} {pre s : Str} {n : Nat} (h : pre.length = n) :
    findFirst p (pre ++ s) n = (findFirst p s).map (· + n) := by
  subst h; exact findFirst_ofs

theorem splitLoop_pieces (sep : Str) (n : Nat) : ∀ (pre s : Str) (acc : List Str), s.length < n →
    ∃ ps, splitLoop (pre ++ s) sep n (findFirst (fun c => !inSet sep c) (pre ++ s) pre.length) acc =
      .ok (acc ++ ps) ∧ Pieces (· ∈ cstr sep) s ps := by
  induction n with
  | zero => intro _ _ _ h; omega
  | succ n ih =>
    intro pre s acc hlen
    rw [findFirst_ofs]
    cases h : findFirst (fun c => !inSet sep c) s with
    | none =>
      refine ⟨[], by simp [splitLoop], .done ?_⟩
      intro c hc
      have := findFirst_eq_none.1 h c hc
      exact inSet_iff.1 (by simpa using this)
    | some i =>
      obtain ⟨a, x, post, rfl, rfl, hx, ha⟩ := findFirst_eq_some.1 h
      have ha' : ∀ c ∈ a, c ∈ cstr sep := fun c hc => inSet_iff.1 (by simpa using ha c hc)
      have hx' : inSet sep x = false := by simpa using hx
      have e1 : pre ++ (a ++ x :: post) = (pre ++ a) ++ (x :: post) := by simp
      have l1 : (pre ++ a).length = a.length + pre.length := by simp [Nat.add_comm]
      simp only [Option.map_some, splitLoop]
      rw [e1, findFirst_ofs' l1]
      cases h2 : findFirst (inSet sep) (x :: post) with
      | none =>
        have hall := findFirst_eq_none.1 h2
        refine ⟨[x :: post], ?_, ?_⟩
        · simp only [Option.map_none]
          rw [← l1, substr_append]
          cases n with
          | zero => simp at hlen
          | succ n => simp [splitLoop]
        · have := Pieces.piece (p := (· ∈ cstr sep)) (a := a) (r := x :: post) (rest := []) (ps := [])
            ha' (by simp) (fun c hc => inSet_false.1 (hall c hc)) (by simp) (.done (by simp))
          simpa using this
      | some j =>
        obtain ⟨r, y, post2, hr, rfl, hy, hrn⟩ := findFirst_eq_some.1 h2
        have hr0 : r ≠ [] := by
          rintro rfl
          simp at hr
          rw [hr.1, hy] at hx'; simp at hx'
        have l2 : (pre ++ a ++ r).length = r.length + (a.length + pre.length) := by simp; omega
        have e2 : pre ++ a ++ (x :: post) = (pre ++ a ++ r) ++ (y :: post2) := by simp [hr]
        have hs : substr (pre ++ a ++ (x :: post)) (a.length + pre.length)
            (countSub (r.length + (a.length + pre.length)) (a.length + pre.length)) = .ok r := by
          rw [Nat.add_comm r.length, countSub_add, hr, ← l1]
          exact substr_append_take
        simp only [Option.map_some, hs, Res.bind_ok]
        rw [e2]
        have l3 : (y :: post2).length < n := by
          have := congrArg List.length hr
          simp at this hlen
          have : 0 < r.length := List.length_pos_iff.2 hr0
          simp; omega
        obtain ⟨ps, h3, h4⟩ := ih (pre ++ a ++ r) (y :: post2) (acc ++ [r]) l3
        rw [l2] at h3
        refine ⟨r :: ps, by rw [h3]; simp, ?_⟩
        have := Pieces.piece (p := (· ∈ cstr sep)) (a := a) (r := r) (rest := y :: post2) (ps := ps)
          ha' hr0 (fun c hc => inSet_false.1 (hrn c hc)) (by simp; exact inSet_iff.1 hy) h4
        rw [hr]
        simpa using this

theorem splitStr_pieces (s sep : Str) :
    ∃ ps, splitStr s sep = .ok ps ∧ Pieces (· ∈ cstr sep) s ps := by
  obtain ⟨ps, h1, h2⟩ := splitLoop_pieces sep (s.length + 1) [] s [] (by omega)
  exact ⟨ps, by simpa [splitStr] using h1, h2⟩

end Flut
