import Verif.Model.Text
import Verif.Spec.Text
import Verif.Proofs.Numbers

/-! # Lemmas on numbers as text -/

namespace Flut

open Spec CharStream

theorem streamSpace_iff {c : Byte} : isSpaceC c = true ↔ IsSpace c := by
  have h : ∀ c : Byte, isSpaceC c = true ↔ (c ∈ b!" \t\n" ∨ c = 11 ∨ c = 12 ∨ c = 13) := by
    intro c
    have e : c = UInt8.ofNat c.toNat := by simp
    have hlt := c.toNat_lt
    generalize c.toNat = n at e hlt
    subst e
    revert n
    decide +kernel
  exact h c

theorem mem_takeWhile_true {p : Byte → Bool} {l : Str} {c : Byte} (h : c ∈ l.takeWhile p) : p c = true := by
  induction l with
  | nil => simp at h
  | cons a l ih =>
    rw [List.takeWhile_cons] at h
    by_cases ha : p a = true
    · rw [if_pos ha] at h
      rcases List.mem_cons.1 h with rfl | h
      · exact ha
      · exact ih h
    · rw [if_neg ha] at h; simp at h

theorem decValue_append (a b : Str) : decValue (a ++ b) = b.foldl (fun a d => a * 10 + (d.toNat - 48)) (decValue a) := by
  unfold decValue; rw [List.foldl_append]

theorem natStrF_spec (fuel n : Nat) (h : n < fuel) : IsDigits (natStrF fuel n) ∧ decValue (natStrF fuel n) = n := by
  have dig : ∀ d, d < 10 → (UInt8.ofNat (48 + d)).toNat = 48 + d := by
    intro d hd
    rw [UInt8.toNat_ofNat']
    omega
  induction fuel generalizing n with
  | zero => omega
  | succ fuel ih =>
    unfold natStrF
    by_cases h10 : n < 10
    · rw [if_pos h10]
      refine ⟨⟨by simp, ?_⟩, ?_⟩
      · intro d hd
        simp only [List.mem_singleton] at hd
        subst hd
        rw [dig n h10]; omega
      · simp only [decValue, List.foldl_cons, List.foldl_nil, dig n h10]; omega
    · rw [if_neg h10]
      obtain ⟨h1, h2⟩ := ih (n / 10) (by omega)
      refine ⟨⟨by simp, ?_⟩, ?_⟩
      · intro d hd
        rcases List.mem_append.1 hd with hd | hd
        · exact h1.2 d hd
        · simp only [List.mem_singleton] at hd
          subst hd
          rw [dig _ (Nat.mod_lt _ (by omega))]; omega
      · rw [decValue_append, h2]
        simp only [List.foldl_cons, List.foldl_nil, dig _ (Nat.mod_lt n (show 0 < 10 by omega))]
        omega

theorem natStr_digits (n : Nat) : IsDigits (natStr n) ∧ decValue (natStr n) = n := natStrF_spec _ _ (by omega)

theorem natStrF_head (fuel : Nat) : ∀ n, n < fuel → (natStrF fuel n).head? = some 48 → n = 0 := by
  induction fuel with
  | zero => intro n h; omega
  | succ fuel ih =>
    intro n hn h
    unfold natStrF at h
    split at h
    · rename_i h10
      simp only [List.head?_cons, Option.some.injEq] at h
      have : n = 0 ∨ n = 1 ∨ n = 2 ∨ n = 3 ∨ n = 4 ∨ n = 5 ∨ n = 6 ∨ n = 7 ∨ n = 8 ∨ n = 9 := by omega
      rcases this with rfl | rfl | rfl | rfl | rfl | rfl | rfl | rfl | rfl | rfl <;> first | rfl | exact absurd h (by decide)
    · rename_i h10
      have hne := (natStrF_spec fuel (n / 10) (by omega)).1.1
      have h : (natStrF fuel (n / 10)).head? = some 48 := by
        cases hh : natStrF fuel (n / 10) with
        | nil => exact absurd hh hne
        | cons a l => rw [hh] at h; simpa using h
      have := ih (n / 10) (by omega) h
      omega

/-- There are no leading zeros. -/
theorem natStr_head (n : Nat) (h : (natStr n).head? = some 48) : n = 0 := natStrF_head _ n (by omega) h

theorem intStr_numeral (x : Int) : Numeral (intStr x) x := by
  obtain ⟨h1, h2⟩ := natStr_digits x.natAbs
  unfold intStr
  by_cases h : x < 0
  · rw [if_pos h]
    have := Numeral.minus h1
    rw [h2] at this
    have e : -((x.natAbs : Nat) : Int) = x := by omega
    rwa [e] at this
  · rw [if_neg h]
    have := Numeral.pos h1
    rw [h2] at this
    have e : ((x.natAbs : Nat) : Int) = x := by omega
    rwa [e] at this

/-- Scanning a numeral. -/
theorem scanNumber_numeral {w rest : Str} {x : Int} (h : Numeral w x)
    (hr : ∀ c ∈ rest.head?, ¬ (48 ≤ c.toNat ∧ c.toNat ≤ 57)) :
    ∃ m neg, scanNumber (w ++ rest) = some (m, neg, rest) ∧ signed m neg = x ∧ m = x.natAbs := by
  have hr' : ∀ c ∈ rest.head?, isDigitC c = false := by
    intro c hc
    have := hr c hc
    rw [← isDigitC_iff] at this
    simpa using this
  have go : ∀ ds : Str, IsDigits ds → (ds ++ rest).takeWhile isDigitC = ds ∧ (ds ++ rest).dropWhile isDigitC = rest :=
    fun ds hd => ⟨takeWhile_append_stop (fun c hc => isDigitC_iff.2 (hd.2 c hc)) hr',
      dropWhile_append_stop (fun c hc => isDigitC_iff.2 (hd.2 c hc)) hr'⟩
  cases h with
  | pos hd =>
    obtain ⟨h1, h2⟩ := go w hd
    cases w with
    | nil => exact absurd rfl hd.1
    | cons d ds =>
      have hdd := hd.2 d (by simp)
      have hn1 : d ≠ 45 := by rintro rfl; simp at hdd
      have hn2 : d ≠ 43 := by rintro rfl; simp at hdd
      refine ⟨decValue (d :: ds), false, ?_, rfl, by simp⟩
      unfold scanNumber
      simp only [List.cons_append, List.head?_cons, Option.some.injEq, hn1, hn2, or_self, if_false]
      rw [← List.cons_append, h1, h2]
      simp only [List.isEmpty_cons, Bool.false_eq_true, if_false]
      have : (some d == some (45 : Byte)) = false := by simp [hn1]
      rw [this]
      rfl
  | plus hd =>
    rename_i ds
    obtain ⟨h1, h2⟩ := go ds hd
    refine ⟨decValue ds, false, ?_, rfl, by simp⟩
    unfold scanNumber
    simp only [List.cons_append, List.head?_cons, or_true, if_true, List.tail_cons, h1, h2]
    have : ds.isEmpty = false := by simp [hd.1]
    simp only [this, Bool.false_eq_true, if_false]
    rfl
  | minus hd =>
    rename_i ds
    obtain ⟨h1, h2⟩ := go ds hd
    refine ⟨decValue ds, true, ?_, rfl, by simp⟩
    unfold scanNumber
    simp only [List.cons_append, List.head?_cons, true_or, if_true, List.tail_cons, h1, h2]
    have : ds.isEmpty = false := by simp [hd.1]
    simp only [this, Bool.false_eq_true, if_false]
    rfl

/-- What is scanned is a numeral. -/
theorem scanNumber_some {p rest : Str} {m : Nat} {neg : Bool} (h : scanNumber p = some (m, neg, rest)) :
    ∃ w, p = w ++ rest ∧ Numeral w (signed m neg) ∧ ∀ c ∈ rest.head?, ¬ (48 ≤ c.toNat ∧ c.toNat ≤ 57) := by
  have hd : ∀ q : Str, (q.takeWhile isDigitC).isEmpty = false → IsDigits (q.takeWhile isDigitC) := by
    intro q hq
    refine ⟨by simpa using hq, ?_⟩
    intro d hd
    exact isDigitC_iff.1 (mem_takeWhile_true hd)
  have hrest : ∀ q : Str, ∀ c ∈ (q.dropWhile isDigitC).head?, ¬ (48 ≤ c.toNat ∧ c.toNat ≤ 57) := by
    intro q c hc
    rw [← isDigitC_iff]
    have := List.head?_dropWhile_not isDigitC q
    rw [Option.mem_def] at hc
    rw [hc] at this
    simpa using this
  unfold scanNumber at h
  by_cases hs : p.head? = some 45 ∨ p.head? = some 43
  · simp only [if_pos hs] at h
    by_cases hne : (p.tail.takeWhile isDigitC).isEmpty = true
    · rw [if_pos hne] at h; cases h
    rw [if_neg hne] at h
    simp only [Option.some.injEq, Prod.mk.injEq] at h
    obtain ⟨h1, h2, h3⟩ := h
    have hdig := hd p.tail (by simpa using hne)
    subst h3
    cases p with
    | nil => simp at hs
    | cons c q =>
      simp only [List.tail_cons] at *
      simp only [List.head?_cons, Option.some.injEq] at hs h2
      rcases hs with rfl | rfl
      · refine ⟨45 :: q.takeWhile isDigitC, by simp, ?_, hrest q⟩
        have : neg = true := by rw [← h2]; rfl
        rw [this, ← h1]
        exact Numeral.minus hdig
      · refine ⟨43 :: q.takeWhile isDigitC, by simp, ?_, hrest q⟩
        have : neg = false := by rw [← h2]; rfl
        rw [this, ← h1]
        exact Numeral.plus hdig
  · simp only [if_neg hs] at h
    by_cases hne : (p.takeWhile isDigitC).isEmpty = true
    · rw [if_pos hne] at h; cases h
    rw [if_neg hne] at h
    simp only [Option.some.injEq, Prod.mk.injEq] at h
    obtain ⟨h1, h2, h3⟩ := h
    have hdig := hd p (by simpa using hne)
    subst h3
    refine ⟨p.takeWhile isDigitC, (List.takeWhile_append_dropWhile).symm, ?_, hrest p⟩
    have : neg = false := by
      rw [← h2]
      simp only [not_or] at hs
      simpa using hs.1
    rw [this, ← h1]
    exact Numeral.pos hdig

theorem numeral_head {w : Str} {x : Int} (h : Numeral w x) : ∃ c cs, w = c :: cs ∧ isSpaceC c = false ∧ c ≠ 0 := by
  cases h with
  | pos hd =>
    cases w with
    | nil => exact absurd rfl hd.1
    | cons d ds =>
      have := hd.2 d (by simp)
      exact ⟨d, ds, rfl, digit_not_space this, by rintro rfl; simp at this⟩
  | plus hd => exact ⟨43, _, rfl, by decide, by decide⟩
  | minus hd => exact ⟨45, _, rfl, by decide, by decide⟩

/-- Skipping white space before a numeral. -/
theorem dropSpace_numeral {ws w rest : Str} {x : Int} (hws : ∀ c ∈ ws, IsSpace c) (h : Numeral w x) :
    (ws ++ w ++ rest).dropWhile isSpaceC = w ++ rest := by
  obtain ⟨c, cs, rfl, hc, _⟩ := numeral_head h
  rw [List.append_assoc]
  exact dropWhile_append_stop (fun c hc => streamSpace_iff.2 (hws c hc)) (by simp [hc])

/-- A text either starts with a numeral or scanning it fails. -/
theorem startsWithNumeral_iff (s : Str) (x : Int) :
    StartsWithNumeral s x ↔ ∃ m neg rest, scanNumber (s.dropWhile isSpaceC) = some (m, neg, rest) ∧ signed m neg = x := by
  constructor
  · rintro ⟨ws, w, rest, rfl, hws, hw, hr⟩
    rw [dropSpace_numeral hws hw]
    obtain ⟨m, neg, h1, h2, _⟩ := scanNumber_numeral hw hr
    exact ⟨m, neg, rest, h1, h2⟩
  · rintro ⟨m, neg, rest, h1, h2⟩
    obtain ⟨w, e, hw, hr⟩ := scanNumber_some h1
    refine ⟨s.takeWhile isSpaceC, w, rest, ?_, ?_, by rw [← h2]; exact hw, hr⟩
    · rw [List.append_assoc, ← e, List.takeWhile_append_dropWhile]
    · intro c hc
      exact streamSpace_iff.1 (mem_takeWhile_true hc)

/-- Reading an integer that is in range. -/
theorem readInt_numeral {bits : Nat} {ws w rest : Str} {x : Int} (hws : ∀ c ∈ ws, IsSpace c) (h : Numeral w x)
    (hr : ∀ c ∈ rest.head?, ¬ (48 ≤ c.toNat ∧ c.toNat ≤ 57)) (hx : InRange bits x) :
    IStream.readInt bits { rest := ws ++ w ++ rest } = (some x, { rest := rest, eof := rest.isEmpty }) := by
  obtain ⟨m, neg, h1, h2, _⟩ := scanNumber_numeral h hr
  obtain ⟨c, cs, rfl, hc, _⟩ := numeral_head h
  have hd := dropSpace_numeral (rest := rest) hws h
  have hs : IStream.sentry { rest := ws ++ c :: cs ++ rest } = (true, { rest := c :: cs ++ rest }) := by
    unfold IStream.sentry
    simp only [IStream.good, Bool.not_false, Bool.and_self, if_true, hd]
    simp
  unfold IStream.readInt
  rw [hs]
  simp only [h1, h2]
  unfold InRange at hx
  rw [if_pos hx]

end Flut
