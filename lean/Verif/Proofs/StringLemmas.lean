import Verif.Model.Strings

/-! # Lemmas about the `std::string` operations -/

namespace Flut

theorem findLast_eq_none {p : Byte → Bool} {s : Str} :
    findLast p s = none ↔ ∀ c ∈ s, p c = false := by
  induction s with
  | nil => simp [findLast]
  | cons c cs ih =>
    simp only [findLast, List.mem_cons, forall_eq_or_imp]
    cases h : findLast p cs with
    | none =>
      have := ih.1 h
      cases hp : p c <;> simp_all
    | some i =>
      simp only [reduceCtorEq, false_iff, not_and]
      intro _ h2
      have := ih.2 h2
      simp_all

theorem findLast_append_cons {p : Byte → Bool} {pre post : Str} {c : Byte}
    (hc : p c = true) (hpost : ∀ d ∈ post, p d = false) :
    findLast p (pre ++ c :: post) = some pre.length := by
  induction pre with
  | nil =>
    have : findLast p post = none := findLast_eq_none.2 hpost
    simp [findLast, this, hc]
  | cons d ds ih => simp [findLast, ih]

theorem findLast_eq_some {p : Byte → Bool} {s : Str} {i : Nat} :
    findLast p s = some i ↔ ∃ pre c post, s = pre ++ c :: post ∧ pre.length = i ∧ p c = true ∧
      ∀ d ∈ post, p d = false := by
  constructor
  · induction s generalizing i with
    | nil => simp [findLast]
    | cons c cs ih =>
      simp only [findLast]
      cases h : findLast p cs with
      | none =>
        have hn := findLast_eq_none.1 h
        cases hp : p c with
        | false => simp
        | true =>
          intro hi
          simp at hi
          exact ⟨[], c, cs, by simp, by simp [← hi], hp, hn⟩
      | some j =>
        intro hi
        simp at hi
        obtain ⟨pre, d, post, h1, h2, h3, h4⟩ := ih h
        exact ⟨c :: pre, d, post, by simp [h1], by simp [h2, hi], h3, h4⟩
  · rintro ⟨pre, c, post, rfl, rfl, hc, hp⟩
    exact findLast_append_cons hc hp

theorem findFirst_zero {p : Byte → Bool} {s : Str} : findFirst p s = s.findIdx? p := by
  simp [findFirst]

theorem findFirst_eq_none {p : Byte → Bool} {s : Str} :
    findFirst p s = none ↔ ∀ c ∈ s, p c = false := by
  simp [findFirst_zero]

theorem findFirst_append_cons {p : Byte → Bool} {pre post : Str} {c : Byte}
    (hc : p c = true) (hpre : ∀ d ∈ pre, p d = false) :
    findFirst p (pre ++ c :: post) = some pre.length := by
  rw [findFirst_zero]
  induction pre with
  | nil => simp [List.findIdx?_cons, hc]
  | cons d ds ih =>
    have hd := hpre d (by simp)
    simp [List.findIdx?_cons, hd, ih (fun e he => hpre e (by simp [he]))]

theorem findFirst_eq_some {p : Byte → Bool} {s : Str} {i : Nat} :
    findFirst p s = some i ↔ ∃ pre c post, s = pre ++ c :: post ∧ pre.length = i ∧ p c = true ∧
      ∀ d ∈ pre, p d = false := by
  constructor
  · intro h
    rw [findFirst_zero] at h
    induction s generalizing i with
    | nil => simp at h
    | cons c cs ih =>
      rw [List.findIdx?_cons] at h
      cases hp : p c with
      | true =>
        simp [hp] at h
        exact ⟨[], c, cs, by simp, by simp [← h], hp, by simp⟩
      | false =>
        simp [hp] at h
        obtain ⟨j, hj, rfl⟩ := h
        obtain ⟨pre, d, post, h1, h2, h3, h4⟩ := ih hj
        exact ⟨c :: pre, d, post, by simp [h1], by simp [h2], h3, by
          intro e he
          rcases List.mem_cons.1 he with rfl | he
          · exact hp
          · exact h4 e he⟩
  · rintro ⟨pre, c, post, rfl, rfl, hc, hp⟩
    exact findFirst_append_cons hc hp

theorem findFirst_ofs {p : Byte → Bool} {pre s : Str} :
    findFirst p (pre ++ s) pre.length = (findFirst p s).map (· + pre.length) := by
  simp [findFirst]

theorem substr_append {pre post : Str} : substr (pre ++ post) pre.length none = .ok post := by
  simp [substr]

theorem substr_append_take {pre mid post : Str} :
    substr (pre ++ (mid ++ post)) pre.length (some mid.length) = .ok mid := by
  simp [substr]

theorem substr_zero {s : Str} {n : Nat} : substr s 0 (some n) = .ok (s.take n) := by
  simp [substr]

theorem substr_zero_none {s : Str} : substr s 0 none = .ok s := by
  simp [substr]

theorem countSub_add {a b : Nat} : countSub (a + b) a = some b := by
  simp [countSub]

/-- Splitting a list at its first and last element satisfying a predicate. -/
theorem exists_trim_split (p : Byte → Bool) (s : Str) :
    (∀ c ∈ s, p c = true) ∨ ∃ a r b, s = a ++ (r ++ b) ∧ (∀ c ∈ a, p c = true) ∧ (∀ c ∈ b, p c = true) ∧
      r ≠ [] ∧ (∀ c ∈ r.head?, p c = false) ∧ (∀ c ∈ r.getLast?, p c = false) := by
  cases h : findFirst (fun c => !p c) s with
  | none => left; simpa using findFirst_eq_none.1 h
  | some i =>
    right
    obtain ⟨a, c, post, rfl, -, hc, ha⟩ := findFirst_eq_some.1 h
    cases h2 : findLast (fun c => !p c) (c :: post) with
    | none =>
      have := findLast_eq_none.1 h2 c (by simp)
      simp_all
    | some j =>
      obtain ⟨pre, d, b, h3, -, hd, hb⟩ := findLast_eq_some.1 h2
      refine ⟨a, pre ++ [d], b, by simp [h3], by simpa using ha, by simpa using hb, by simp, ?_, ?_⟩
      · intro e he
        have : (c :: post).head? = some e := by
          rw [h3]; cases pre <;> simp_all
        simp at this; subst this; simpa using hc
      · intro e he
        simp at he; subst he; simpa using hd

end Flut
