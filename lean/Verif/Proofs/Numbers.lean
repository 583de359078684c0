import Verif.Proofs.CharStreamOps

/-! # Reading decimal numbers -/

namespace Flut

open Spec CharStream

theorem isDigitC_iff {c : Byte} : isDigitC c = true ↔ 48 ≤ c.toNat ∧ c.toNat ≤ 57 := by
  simp [isDigitC, UInt8.le_iff_toNat_le]

theorem takeWhile_append_stop {p : Byte → Bool} {a b : Str} (ha : ∀ c ∈ a, p c = true)
    (hb : ∀ c ∈ b.head?, p c = false) : (a ++ b).takeWhile p = a := by
  rw [List.takeWhile_append_of_pos ha]
  cases b with
  | nil => simp
  | cons x xs => simp [hb x (by simp)]

theorem dropWhile_append_stop {p : Byte → Bool} {a b : Str} (ha : ∀ c ∈ a, p c = true)
    (hb : ∀ c ∈ b.head?, p c = false) : (a ++ b).dropWhile p = b := by
  rw [List.dropWhile_append_of_pos ha]
  cases b with
  | nil => simp
  | cons x xs => simp [hb x (by simp)]

theorem digit_not_space {c : Byte} (h : 48 ≤ c.toNat ∧ c.toNat ≤ 57) : isSpaceC c = false := by
  simp [isSpaceC, UInt8.le_iff_toNat_le]
  constructor
  · rintro rfl; simp at h
  · intro _; omega

theorem strtol_numeral {bits : Nat} {w rest : Str} {x : Int} (h : Numeral w x)
    (hr : ∀ c ∈ rest.head?, ¬ (48 ≤ c.toNat ∧ c.toNat ≤ 57)) :
    strtol bits (w ++ rest) = (saturate bits x, w.length) := by
  have hr' : ∀ c ∈ rest.head?, isDigitC c = false := by
    intro c hc
    have := hr c hc
    rw [← isDigitC_iff] at this
    simpa using this
  cases h with
  | pos hd =>
    have htake : (w ++ rest).takeWhile isDigitC = w :=
      takeWhile_append_stop (fun c hc => isDigitC_iff.2 (hd.2 c hc)) hr'
    cases w with
    | nil => exact absurd rfl hd.1
    | cons d ds =>
      have h1 := hd.2 d (by simp)
      have hs : ((d :: ds) ++ rest).takeWhile isSpaceC = [] := by simp [digit_not_space h1]
      have hn1 : d ≠ 45 := by rintro rfl; simp at h1
      have hn2 : d ≠ 43 := by rintro rfl; simp at h1
      simp only [strtol, hs]
      simp only [List.length_nil, List.drop_zero, List.cons_append, hn1, hn2, or_self, if_false]
      rw [← List.cons_append, htake]
      simp [hn1]
      rfl
  | plus hd =>
    rename_i ds
    have htake : (ds ++ rest).takeWhile isDigitC = ds :=
      takeWhile_append_stop (fun c hc => isDigitC_iff.2 (hd.2 c hc)) hr'
    have hs : (43 :: ds ++ rest).takeWhile isSpaceC = [] := by simp [isSpaceC]
    simp only [strtol, hs]
    simp only [List.length_nil, List.drop_zero, List.cons_append, or_true, if_true, List.drop_succ_cons, htake]
    simp [hd.1]
    exact ⟨rfl, by omega⟩
  | minus hd =>
    rename_i ds
    have htake : (ds ++ rest).takeWhile isDigitC = ds :=
      takeWhile_append_stop (fun c hc => isDigitC_iff.2 (hd.2 c hc)) hr'
    have hs : (45 :: ds ++ rest).takeWhile isSpaceC = [] := by simp [isSpaceC]
    simp only [strtol, hs]
    simp only [List.length_nil, List.drop_zero, List.cons_append, true_or, if_true, List.drop_succ_cons, htake]
    simp [hd.1]
    exact ⟨rfl, by omega⟩

theorem saturate_inRange {bits : Nat} {x : Int} (h : -(2 ^ (bits - 1) : Int) ≤ x ∧ x < 2 ^ (bits - 1)) :
    saturate bits x = x := by
  unfold saturate
  rw [if_neg (by omega), if_neg (by omega)]

theorem cstr_of_ne_zero {t : Str} (h : ∀ c ∈ t, c ≠ 0) : cstr t = t := by
  have := takeWhile_append_stop (p := (· != 0)) (a := t) (b := []) (by simpa using h) (by simp)
  simpa [cstr] using this

/-- Delimiter sets that do not interfere with numbers. -/
def NumDelims (delims : Str) : Prop := ∀ d ∈ delims, d ≠ 0 ∧ d ≠ 43 ∧ d ≠ 45 ∧ ¬ (48 ≤ d.toNat ∧ d.toNat ≤ 57)

theorem Numeral.chars {w : Str} {x : Int} (h : Numeral w x) :
    w ≠ [] ∧ ∀ c ∈ w, c ≠ 0 ∧ (c = 43 ∨ c = 45 ∨ (48 ≤ c.toNat ∧ c.toNat ≤ 57)) := by
  have dz : ∀ c : Byte, 48 ≤ c.toNat ∧ c.toNat ≤ 57 → c ≠ 0 := by
    rintro c h rfl; simp at h
  cases h with
  | pos hd => exact ⟨hd.1, fun c hc => ⟨dz c (hd.2 c hc), Or.inr (Or.inr (hd.2 c hc))⟩⟩
  | plus hd =>
    refine ⟨by simp, fun c hc => ?_⟩
    rcases List.mem_cons.1 hc with rfl | hc
    · simp
    · exact ⟨dz c (hd.2 c hc), Or.inr (Or.inr (hd.2 c hc))⟩
  | minus hd =>
    refine ⟨by simp, fun c hc => ?_⟩
    rcases List.mem_cons.1 hc with rfl | hc
    · simp
    · exact ⟨dz c (hd.2 c hc), Or.inr (Or.inr (hd.2 c hc))⟩

theorem NumText.head {delims t : Str} {xs : List Int} (hd : NumDelims delims) (h : NumText delims t xs) :
    (∀ c ∈ t.head?, strchr delims c = false) ∧ (t = [] ↔ xs = []) ∧ (∀ c ∈ t, c ≠ 0) := by
  have key : ∀ {w : Str} {x : Int}, Numeral w x → ∀ c ∈ w, strchr delims c = false := by
    intro w x hw c hc
    have h1 := (Numeral.chars hw).2 c hc
    refine strchr_false.2 ⟨h1.1, fun hm => ?_⟩
    have h2 := hd c hm
    rcases h1.2 with h | h | h
    · exact h2.2.1 h
    · exact h2.2.2.1 h
    · exact h2.2.2.2 h
  induction h with
  | nil => simp
  | last hw =>
    refine ⟨fun c hc => key hw c (List.mem_of_mem_head? hc), by simp [(Numeral.chars hw).1],
      fun c hc => ((Numeral.chars hw).2 c hc).1⟩
  | @cons w sep rest x xs hw hs hsd _ ih =>
    refine ⟨fun c hc => ?_, by simp [(Numeral.chars hw).1], ?_⟩
    · cases w with
      | nil => exact absurd rfl (Numeral.chars hw).1
      | cons y ys => simp at hc; subst hc; exact key hw _ (by simp)
    · intro c hc
      rcases List.mem_append.1 hc with hc | hc
      · rcases List.mem_append.1 hc with hc | hc
        · exact ((Numeral.chars hw).2 c hc).1
        · exact (hd c (hsd c hc)).1
      · exact ih.2.2 c hc

/-- The stream positioned at a text of numbers. -/
def numStream (delims t : Str) : CharStream := { rest := t, delims := delims, eof := t.isEmpty }

theorem skip_numText {delims sep t : Str} {xs : List Int} (hd : NumDelims delims) (h : NumText delims t xs)
    (hs : ∀ d ∈ sep, d ∈ delims) :
    ({ rest := sep ++ t, delims := delims } : CharStream).skipDelims = numStream delims t := by
  have := dropWhile_append_stop (p := strchr delims) (fun c hc => strchr_iff.2 (Or.inr (hs c hc)))
    (NumText.head hd h).1
  simp only [skipDelims, this, testEof, numStream]
  cases t <;> simp

/-- Reading the next number. -/
theorem readLong_numText {bits : Nat} {delims t : Str} {x : Int} {xs : List Int} (hd : NumDelims delims)
    (h : NumText delims t (x :: xs)) (hx : -(2 ^ (bits - 1) : Int) ≤ x ∧ x < 2 ^ (bits - 1)) :
    ∃ t', (numStream delims t).readLong bits = (x, numStream delims t') ∧ NumText delims t' xs ∧
      t'.length < t.length := by
  cases h with
  | last hw =>
    have h1 := strtol_numeral (bits := bits) (rest := []) hw (by simp)
    simp at h1
    refine ⟨[], ?_, .nil, ?_⟩
    · have hne : t.length ≠ 0 := by simpa using (Numeral.chars hw).1
      have hne' : t ≠ [] := (Numeral.chars hw).1
      simp only [readLong, numStream, h1, saturate_inRange hx, processEnd, if_neg hne]
      simp [skipDelims, testEof]
    · have := (Numeral.chars hw).1
      cases t <;> simp_all
  | @cons w sep rest _ _ hw hs hsd hrest =>
    have h1 := strtol_numeral (bits := bits) (rest := sep ++ rest) hw (by
      cases sep with
      | nil => exact absurd rfl hs
      | cons y ys =>
        intro c hc
        simp at hc; subst hc
        exact (hd _ (hsd _ (by simp))).2.2.2)
    have hne' := (Numeral.chars hw).1
    have hne : w.length ≠ 0 := by simpa using hne'
    refine ⟨rest, ?_, hrest, ?_⟩
    · have he : (w ++ sep ++ rest).isEmpty = false := by simp [hne']
      rw [List.append_assoc] at he
      simp only [readLong, numStream, List.append_assoc, h1, saturate_inRange hx, processEnd, if_neg hne,
        List.drop_left, he]
      rw [skip_numText hd hrest hsd]
      rfl
    · have := List.length_pos_iff.2 hne'
      simp; omega

theorem readVec_numText {bits : Nat} {delims : Str} (hd : NumDelims delims) (max : Option Nat) (n : Nat) :
    ∀ (t : Str) (xs : List Int) (acc : List Int), NumText delims t xs → t.length < n →
    (∀ x ∈ xs, -(2 ^ (bits - 1) : Int) ≤ x ∧ x < 2 ^ (bits - 1)) →
    (∀ m, max = some m → acc.length ≤ m) →
    readVec bits max n (numStream delims t) acc =
      .ok (match max with | none => acc ++ xs | some m => (acc ++ xs).take m) := by
  induction n with
  | zero => intro t xs acc h hn; omega
  | succ n ih =>
    intro t xs acc h hn hr hm
    have hh := NumText.head hd h
    cases xs with
    | nil =>
      have : t = [] := hh.2.1.2 rfl
      subst this
      have e : readVec bits max (n + 1) (numStream delims []) acc = .ok acc := by
        simp [readVec, numStream, good]
      rw [e]
      cases max with
      | none => simp
      | some m => simp [List.take_of_length_le (hm m rfl)]
    | cons x xs =>
      have hne : t ≠ [] := fun he => by simpa using hh.2.1.1 he
      obtain ⟨t', h1, h2, h3⟩ := readLong_numText hd h (hr x (by simp))
      have hgood : (numStream delims t).good = true := by simp [numStream, good, hne]
      have hf : (numStream delims t').fail = false := rfl
      by_cases hfull : ∃ m, max = some m ∧ acc.length = m
      · obtain ⟨m, rfl, rfl⟩ := hfull
        simp [readVec, hasRoom]
      · have hlt : hasRoom max acc.length = true := by
          cases max with
          | none => rfl
          | some m =>
            have := hm m rfl
            have : acc.length ≠ m := fun h => hfull ⟨m, rfl, h⟩
            simp [hasRoom]; omega
        have step : readVec bits max (n + 1) (numStream delims t) acc =
            readVec bits max n (numStream delims t') (acc ++ [x]) := by
          simp only [readVec, hgood, hlt, Bool.and_self, if_true, h1, hf]
          rfl
        rw [step, ih t' xs (acc ++ [x]) h2 (by omega) (fun y hy => hr y (by simp [hy]))]
        · simp
        · rintro m rfl
          simp [hasRoom] at hlt ⊢; omega

theorem scanImpl_numText {bits : Nat} {delims : Str} (hd : NumDelims delims) (k : Nat) :
    ∀ (t : Str) (xs : List Int), NumText delims t xs → xs ≠ [] →
    (∀ x ∈ xs, -(2 ^ (bits - 1) : Int) ≤ x ∧ x < 2 ^ (bits - 1)) →
    scanImpl bits k (numStream delims t) = (min k (xs.length - 1), xs.take k) := by
  induction k with
  | zero => intro t xs _ _ _; simp [scanImpl]
  | succ k ih =>
    intro t xs h hne hr
    cases xs with
    | nil => exact absurd rfl hne
    | cons x xs =>
      obtain ⟨t', h1, h2, h3⟩ := readLong_numText hd h (hr x (by simp))
      have hh := NumText.head hd h2
      cases xs with
      | nil =>
        have : t' = [] := hh.2.1.2 rfl
        subst this
        simp only [scanImpl, h1]
        simp [numStream, good]
      | cons y ys =>
        have hne' : t' ≠ [] := fun he => by simpa using hh.2.1.1 he
        have hgood : (numStream delims t').good = true := by simp [numStream, good, hne']
        simp only [scanImpl, h1, hgood, if_true]
        rw [ih t' (y :: ys) h2 (by simp) (fun z hz => hr z (by simp [hz]))]
        simp

end Flut
