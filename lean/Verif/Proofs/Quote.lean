import Verif.Proofs.StringLemmas
import Verif.Spec.Strings

/-! # Lemmas about quoting and unquoting -/

namespace Flut

theorem forall_byte {P : Byte → Prop} (h : ∀ n, n < 256 → P (UInt8.ofNat n)) : ∀ c, P c := by
  intro c
  have := h c.toNat c.toNat_lt
  simpa using this

/-- How `quoted` encodes a byte, as a finite table. -/
inductive QuoteCase (c : Byte) : Prop
  | plain : quoteChar c = [c] → c ≠ 34 → c ≠ 92 → 32 ≤ c.toNat → c.toNat < 128 → QuoteCase c
  | esc (d : Byte) : quoteChar c = [92, d] → 1 ≤ c.toNat → c.toNat < 128 →
      ((d = 92 ∧ c = 92) ∨ (d = 34 ∧ c = 34) ∨ (d = 114 ∧ c = 13) ∨ (d = 110 ∧ c = 10) ∨
        (d = 116 ∧ c = 9)) → QuoteCase c
  | oct (d1 d2 d3 : Byte) : quoteChar c = [92, d1, d2, d3] →
      (48 ≤ d1.toNat ∧ d1.toNat < 56) → (48 ≤ d2.toNat ∧ d2.toNat < 56) →
      (48 ≤ d3.toNat ∧ d3.toNat < 56) →
      ((d1.toNat - 48) * 8 + (d2.toNat - 48)) * 8 + (d3.toNat - 48) = c.toNat →
      c.toNat < 32 → QuoteCase c
  | neg (tl : Str) : quoteChar c = 92 :: 51 :: 55 :: 55 :: tl → 128 ≤ c.toNat →
      (∀ d ∈ tl, 48 ≤ d.toNat ∧ d.toNat < 56) → QuoteCase c

def quoteCaseB (c : Byte) : Bool :=
  match quoteChar c with
  | [d] => d == c && c != 34 && c != 92 && 32 ≤ c.toNat && c.toNat < 128
  | [e, d] => e == 92 && 1 ≤ c.toNat && c.toNat < 128 &&
      ((d == 92 && c == 92) || (d == 34 && c == 34) || (d == 114 && c == 13) ||
       (d == 110 && c == 10) || (d == 116 && c == 9))
  | [e, d1, d2, d3] => e == 92 && 48 ≤ d1.toNat && d1.toNat < 56 && 48 ≤ d2.toNat && d2.toNat < 56
      && 48 ≤ d3.toNat && d3.toNat < 56 &&
      ((d1.toNat - 48) * 8 + (d2.toNat - 48)) * 8 + (d3.toNat - 48) == c.toNat && c.toNat < 32
  | e :: d1 :: d2 :: d3 :: tl => e == 92 && d1 == 51 && d2 == 55 && d3 == 55 && 128 ≤ c.toNat &&
      tl.all fun d => 48 ≤ d.toNat && d.toNat < 56
  | _ => false

theorem quoteCaseB_all : ∀ c, quoteCaseB c = true := by
  apply forall_byte
  decide +kernel

theorem quoteCase (c : Byte) : QuoteCase c := by
  have h := quoteCaseB_all c
  unfold quoteCaseB at h
  split at h
  next d hq =>
    simp only [Bool.and_eq_true, beq_iff_eq, bne_iff_ne, decide_eq_true_eq] at h
    obtain ⟨⟨⟨⟨rfl, h1⟩, h2⟩, h3⟩, h4⟩ := h
    exact .plain hq h1 h2 h3 h4
  next e d hq =>
    simp only [Bool.and_eq_true, Bool.or_eq_true, beq_iff_eq, decide_eq_true_eq] at h
    obtain ⟨⟨⟨rfl, h1⟩, h2⟩, h3⟩ := h
    exact .esc d hq h1 h2 (by simpa [or_assoc] using h3)
  next e d1 d2 d3 hq =>
    simp only [Bool.and_eq_true, beq_iff_eq, decide_eq_true_eq] at h
    obtain ⟨⟨⟨⟨⟨⟨⟨⟨rfl, a1⟩, a2⟩, b1⟩, b2⟩, c1⟩, c2⟩, h1⟩, h2⟩ := h
    exact .oct d1 d2 d3 hq ⟨a1, a2⟩ ⟨b1, b2⟩ ⟨c1, c2⟩ h1 h2
  next e d1 d2 d3 tl _ hq =>
    simp only [Bool.and_eq_true, beq_iff_eq, decide_eq_true_eq, List.all_eq_true] at h
    obtain ⟨⟨⟨⟨⟨rfl, rfl⟩, rfl⟩, rfl⟩, h1⟩, h2⟩ := h
    exact .neg tl hq h1 h2
  next => simp at h

theorem decodeChar_esc {c d : Byte} (rest : Str)
    (h : (d = 92 ∧ c = 92) ∨ (d = 34 ∧ c = 34) ∨ (d = 114 ∧ c = 13) ∨ (d = 110 ∧ c = 10) ∨
        (d = 116 ∧ c = 9)) : decodeChar (92 :: d :: rest) = .ok (c, 2) := by
  rcases h with ⟨rfl, rfl⟩ | ⟨rfl, rfl⟩ | ⟨rfl, rfl⟩ | ⟨rfl, rfl⟩ | ⟨rfl, rfl⟩ <;> simp [decodeChar]

theorem decodeChar_oct {d1 d2 d3 : Byte} (rest : Str)
    (h1 : 48 ≤ d1.toNat ∧ d1.toNat < 56) (h2 : 48 ≤ d2.toNat ∧ d2.toNat < 56)
    (h3 : 48 ≤ d3.toNat ∧ d3.toNat < 56) :
    decodeChar (92 :: d1 :: d2 :: d3 :: rest) =
      let v := ((d1.toNat - 48) * 8 + (d2.toNat - 48)) * 8 + (d3.toNat - 48)
      if 0 < v ∧ v < 32 then .ok (UInt8.ofNat v, 4) else .ok (63, 4) := by
  have ne : ∀ k : Byte, (56 ≤ k.toNat ∨ k.toNat < 48) → d1 ≠ k := by
    rintro k hk rfl; omega
  have hm : min (rest.length + 1 + 1 + 1) 3 = 3 := by omega
  have e : ((0 * 8 + d1.toNat - 48) * 8 + d2.toNat - 48) * 8 + d3.toNat - 48 =
      ((d1.toNat - 48) * 8 + (d2.toNat - 48)) * 8 + (d3.toNat - 48) := by omega
  simp only [decodeChar, ne 0 (by decide), ne 92 (by decide), ne 34 (by decide), ne 114 (by decide),
    ne 110 (by decide), ne 116 (by decide), List.length_cons, hm, octLoop, h1, h2, h3, e]
  simp

theorem unquote_plain {c : Byte} (n : Nat) (rest : Str) (h1 : c ≠ 34) (h2 : c ≠ 92) :
    unquoteLoop (n + 1) (c :: rest) = (do let r ← unquoteLoop n rest; .ok (c :: r)) := by
  simp [unquoteLoop, h1, h2]

theorem unquote_esc {c : Byte} {s : Str} {len : Nat} (n : Nat) (rest : Str)
    (hd : decodeChar (92 :: s ++ rest) = .ok (c, len)) (hl : len = s.length + 1) :
    unquoteLoop (n + 1) (92 :: s ++ rest) = (do let r ← unquoteLoop n rest; .ok (c :: r)) := by
  subst hl
  have h := hd
  simp only [List.cons_append] at h
  simp [unquoteLoop, h]
  intro _; omega

/-- Reading back the encoding of a 7-bit non-NUL character. -/
theorem unquote_good {c : Byte} (n : Nat) (rest : Str) (hc : 1 ≤ c.toNat ∧ c.toNat ≤ 127) :
    unquoteLoop (n + 1) (quoteChar c ++ rest) =
      (do let r ← unquoteLoop n rest; .ok (c :: r)) := by
  cases quoteCase c with
  | plain hq h1 h2 _ _ => rw [hq]; exact unquote_plain n rest h1 h2
  | esc d hq _ _ h => rw [hq]; exact unquote_esc (s := [d]) n rest (decodeChar_esc rest h) rfl
  | oct d1 d2 d3 hq h1 h2 h3 hv hlt =>
    rw [hq]
    refine unquote_esc (s := [d1, d2, d3]) (len := 4) n rest ?_ rfl
    have := decodeChar_oct rest h1 h2 h3
    simp only [List.cons_append, List.nil_append] at this ⊢
    rw [this]
    simp only [hv]
    rw [if_pos (by omega)]
    simp
  | neg tl _ h => omega

/-- Reading back the encoding of any other character yields `?` in its place. -/
theorem unquote_bad {c : Byte} (hc : ¬ (1 ≤ c.toNat ∧ c.toNat ≤ 127)) :
    ∃ tl, (∀ d ∈ tl, d ≠ 34 ∧ d ≠ 92) ∧ tl.length < (quoteChar c).length ∧ ∀ n rest, unquoteLoop (n + 1) (quoteChar c ++ rest) =
      (do let r ← unquoteLoop n (tl ++ rest); .ok (63 :: r)) := by
  cases quoteCase c with
  | plain hq h1 h2 _ _ => omega
  | esc d hq _ _ h => omega
  | oct d1 d2 d3 hq h1 h2 h3 hv hlt =>
    refine ⟨[], by simp, by simp [hq], fun n rest => ?_⟩
    rw [hq]
    refine unquote_esc (s := [d1, d2, d3]) (len := 4) n rest ?_ rfl
    have := decodeChar_oct rest h1 h2 h3
    simp only [List.cons_append, List.nil_append] at this ⊢
    rw [this]
    simp only [hv]
    rw [if_neg (by omega)]
  | neg tl hq h ht =>
    refine ⟨tl, ?_, by simp [hq]; omega, fun n rest => ?_⟩
    · intro d hd
      have := ht d hd
      constructor <;> (rintro rfl; simp at this)
    · rw [hq]
      have := unquote_esc (c := 63) (s := [51, 55, 55]) (len := 4) n (tl ++ rest) ?_ rfl
      · simpa using this
      · exact decodeChar_oct (tl ++ rest) (by decide) (by decide) (by decide)

theorem quoteChar_length_pos (c : Byte) : 1 ≤ (quoteChar c).length := by
  cases quoteCase c with
  | plain h => simp [h]
  | esc d h => simp [h]
  | oct d1 d2 d3 h => simp [h]
  | neg tl h => simp [h]

theorem unquoteLoop_ascii {s : Str} (hs : Spec.Ascii s) (rest : Str) (n : Nat) :
    unquoteLoop (n + s.length) (s.flatMap quoteChar ++ rest) =
      (do let r ← unquoteLoop n rest; .ok (s ++ r)) := by
  induction s with
  | nil => cases h : unquoteLoop n rest <;> simp [h]
  | cons c cs ih =>
    have hc := hs c (by simp)
    have ih := ih (fun d hd => hs d (by simp [hd]))
    have hn : n + (c :: cs).length = n + cs.length + 1 := by simp [Nat.add_assoc]
    rw [hn, List.flatMap_cons, List.append_assoc, unquote_good _ _ hc, ih]
    cases h : unquoteLoop n rest <;> simp

theorem flatMap_quoteChar_length (s : Str) : s.length ≤ (s.flatMap quoteChar).length := by
  induction s with
  | nil => simp
  | cons c cs ih =>
    have := quoteChar_length_pos c
    simp only [List.flatMap_cons, List.length_append, List.length_cons]; omega

/-- More fuel does not change a result. -/
theorem unquoteLoop_mono {n : Nat} : ∀ {s : Str} {r : Str}, unquoteLoop n s = .ok r →
    ∀ m, unquoteLoop (n + m) s = .ok r := by
  induction n with
  | zero => intro s r h; simp [unquoteLoop] at h
  | succ n ih =>
    intro s r h m
    have e : n + 1 + m = n + m + 1 := by omega
    rw [e]
    cases s with
    | nil => simp [unquoteLoop] at h
    | cons c cs =>
      unfold unquoteLoop at h ⊢
      split
      · rename_i hc; simpa [hc] using h
      rename_i hc
      split
      · rename_i hc2
        subst hc2
        simp only [hc, if_false, if_true] at h
        cases hd : decodeChar (92 :: cs) with
        | ok x =>
          obtain ⟨ch, len⟩ := x
          rw [hd] at h
          simp only [Res.bind_ok] at h ⊢
          split at h
          · simp at h
          · rename_i hl
            rw [if_neg hl]
            obtain ⟨a, ha, hb⟩ := Res.bind_eq_ok.1 h
            rw [ih ha m]; exact hb
        | throws e => rw [hd] at h; simp at h
        | ub => rw [hd] at h; simp at h
        | diverges => rw [hd] at h; simp at h
      · rename_i hc2
        simp only [hc, hc2, if_false] at h
        obtain ⟨a, ha, hb⟩ := Res.bind_eq_ok.1 h
        rw [ih ha m]; exact hb

theorem unquoteLoop_plain_append {tl : Str} (h : ∀ d ∈ tl, d ≠ 34 ∧ d ≠ 92) (n : Nat) (rest : Str) :
    unquoteLoop (n + tl.length) (tl ++ rest) = (do let r ← unquoteLoop n rest; .ok (tl ++ r)) := by
  induction tl with
  | nil => cases h : unquoteLoop n rest <;> simp [h]
  | cons c cs ih =>
    have hn : n + (c :: cs).length = n + cs.length + 1 := by simp [Nat.add_assoc]
    have hc := h c (by simp)
    rw [hn, List.cons_append, unquote_plain _ _ hc.1 hc.2, ih (fun d hd => h d (by simp [hd]))]
    cases unquoteLoop n rest <;> simp

/-- Unquoting a quoted string always ends normally, within as many steps as there are characters. -/
theorem unquoteLoop_total (s : Str) : ∃ n r, n ≤ (s.flatMap quoteChar).length + 1 ∧
    unquoteLoop n (s.flatMap quoteChar ++ [34]) = .ok r := by
  induction s with
  | nil => exact ⟨1, [], by simp, by simp [unquoteLoop]⟩
  | cons c cs ih =>
    obtain ⟨n, r, hn, h⟩ := ih
    have hq := quoteChar_length_pos c
    by_cases hc : 1 ≤ c.toNat ∧ c.toNat ≤ 127
    · refine ⟨n + 1, c :: r, by rw [List.flatMap_cons, List.length_append]; omega, ?_⟩
      rw [List.flatMap_cons, List.append_assoc, unquote_good _ _ hc, h]; simp
    · obtain ⟨tl, htl, hlen, hb⟩ := unquote_bad hc
      refine ⟨n + tl.length + 1, 63 :: (tl ++ r), by rw [List.flatMap_cons, List.length_append]; omega, ?_⟩
      rw [List.flatMap_cons, List.append_assoc, hb, unquoteLoop_plain_append htl, h]; simp

theorem unquoteLoop_enough (s : Str) : ∃ r,
    unquoteLoop ((s.flatMap quoteChar ++ [34]).length + 1) (s.flatMap quoteChar ++ [34]) = .ok r := by
  obtain ⟨n, r, hn, h⟩ := unquoteLoop_total s
  refine ⟨r, ?_⟩
  rw [← unquoteLoop_mono h ((s.flatMap quoteChar ++ [34]).length + 1 - n)]
  congr 1
  rw [List.length_append, List.length_singleton]; omega

end Flut
