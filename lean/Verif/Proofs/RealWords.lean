import Verif.Proofs.Real

/-! # Lemmas on hexadecimal numbers, infinities and not-a-number as text -/

namespace Flut

open Spec CharStream

theorem byte_all {P : Byte → Prop} [DecidablePred P] (h : ∀ n : Nat, n < 256 → P (UInt8.ofNat n)) (c : Byte) : P c := by
  have e : c = UInt8.ofNat c.toNat := by simp
  rw [e]
  exact h _ c.toNat_lt

/-- `strtod` after blanks and the sign. -/
def strtodBody (f : Fmt) (neg : Bool) (p : Str) : Option (Flt × Bool × Str) :=
  if hasWord b!"infinity" p then some (.inf neg, false, p.drop 8)
  else if hasWord b!"inf" p then some (.inf neg, false, p.drop 3)
  else if hasWord b!"nan" p then some (.nan neg, false, skipNanText (p.drop 3))
  else match (if hasWord b!"0x" p then scanHex (p.drop 2) else none).orElse fun _ => scanDecimal p with
    | none => none
    | some (q, r) => some ((f.convert neg q).1, (f.convert neg q).2, r)

theorem strtod_body (f : Fmt) {ws sign p : Str} (hws : ∀ c ∈ ws, IsSpace c) (hs : sign = [] ∨ sign = [43] ∨ sign = [45])
    {c : Byte} {cs : Str} (hp : p = c :: cs) (hc : isSpaceC c = false) (h43 : c ≠ 43) (h45 : c ≠ 45) :
    strtod f (ws ++ sign ++ p) = strtodBody f (sign == [45]) p := by
  have e1 : (ws ++ sign ++ p).dropWhile isSpaceC = sign ++ p := by
    rw [List.append_assoc, dropWhile_append_stop]
    · intro d hd; exact streamSpace_iff.2 (hws d hd)
    · rcases hs with rfl | rfl | rfl
      · simp [hp, hc]
      · simp; decide
      · simp; decide
  unfold strtod strtodBody
  rw [e1]
  rcases hs with rfl | rfl | rfl
  · have hh : p.head? = some c := by simp [hp]
    have hn : ¬ (some c = some (45 : Byte) ∨ some c = some (43 : Byte)) := by simp [h43, h45]
    have hq : (some c == some (45 : Byte)) = ([] == ([45] : Str)) := by simp [h45]
    simp only [List.nil_append, hh, if_neg hn, hq]
    rfl
  · rfl
  · rfl

/-! ## Hexadecimal numbers -/

theorem hexDigit_iff (c : Byte) (v : Nat) : HexDigit c v ↔ isHexDigitC c = true ∧ hexDigit c = v := by
  have key : ∀ n : Nat, n < 256 → ((isHexDigitC (UInt8.ofNat n) = true ↔ (48 ≤ n ∧ n ≤ 57) ∨ (65 ≤ n ∧ n ≤ 70) ∨ (97 ≤ n ∧ n ≤ 102)) ∧
      hexDigit (UInt8.ofNat n) = if n ≤ 57 then n - 48 else if n ≤ 70 then n - 55 else n - 87) := by decide +kernel
  have k := key c.toNat c.toNat_lt
  have e : UInt8.ofNat c.toNat = c := by simp
  rw [e] at k
  rw [k.1, k.2]
  unfold HexDigit
  generalize c.toNat = n
  split
  · omega
  · split <;> omega

theorem hexDigits_spec {w : Str} {n : Nat} (h : HexDigits w n) :
    (∀ c ∈ w, isHexDigitC c = true) ∧ w.foldl (fun v d => v * 16 + hexDigit d) 0 = n := by
  induction h with
  | nil => simp
  | snoc _ hc ih =>
    obtain ⟨h1, h2⟩ := (hexDigit_iff _ _).1 hc
    constructor
    · intro d hd
      rcases List.mem_append.1 hd with hd | hd
      · exact ih.1 d hd
      · rw [List.mem_singleton.1 hd]; exact h1
    · rw [List.foldl_append, ih.2]
      simp only [List.foldl_cons, List.foldl_nil, h2]
      omega

/-- The part of a hexadecimal number before the exponent. -/
def HexMantissa (w : Str) (x : ℚ) : Prop :=
  (∃ n, HexDigits w n ∧ w ≠ [] ∧ x = n) ∨ ∃ a b n, w = a ++ 46 :: b ∧ HexDigits (a ++ b) n ∧ a ++ b ≠ [] ∧ x = n / 16 ^ b.length

theorem hexMantissa_scan {w r : Str} {x : ℚ} (h : HexMantissa w x) (hr : ∀ c ∈ r.head?, isHexDigitC c = false ∧ c ≠ 46) :
    ∃ a b, scanPoint isHexDigitC (w ++ r) = (a, b, r) ∧ (a.isEmpty && b.isEmpty) = false ∧
      x = ((a ++ b).foldl (fun v d => v * 16 + hexDigit d) 0 : Nat) / 16 ^ b.length := by
  have hr' : ∀ c ∈ r.head?, isHexDigitC c = false := fun c hc => (hr c hc).1
  rcases h with ⟨n, h, hne, rfl⟩ | ⟨a, b, n, rfl, h, hne, rfl⟩
  · obtain ⟨h1, h2⟩ := hexDigits_spec h
    refine ⟨w, [], ?_, ?_, ?_⟩
    · unfold scanPoint
      rw [dropWhile_append_stop h1 hr', takeWhile_append_stop h1 hr', if_neg]
      intro h
      exact (hr 46 (by rw [h]; rfl)).2 rfl
    · cases w <;> simp_all
    · simp [h2]
  · obtain ⟨h0, h2⟩ := hexDigits_spec h
    have h1 : ∀ c ∈ a, isHexDigitC c = true := fun c hc => h0 c (by simp [hc])
    have h3 : ∀ c ∈ b, isHexDigitC c = true := fun c hc => h0 c (by simp [hc])
    have h4 : ∀ c ∈ (46 :: (b ++ r)).head?, isHexDigitC c = false := by simp; decide
    refine ⟨a, b, ?_, ?_, ?_⟩
    · have e : (a ++ 46 :: b) ++ r = a ++ 46 :: (b ++ r) := by simp
      rw [e]
      unfold scanPoint
      rw [dropWhile_append_stop h1 h4, takeWhile_append_stop h1 h4]
      simp [dropWhile_append_stop h3 hr', takeWhile_append_stop h3 hr']
    · cases a <;> cases b <;> simp_all
    · rw [h2]

theorem hexEnds_not {rest : Str} (h : HexEnds rest) : ∀ c ∈ rest.head?, isHexDigitC c = false ∧ c ≠ 46 := by
  intro c hc
  obtain ⟨h1, h2⟩ := h c hc
  refine ⟨?_, ?_⟩
  · rw [← Bool.not_eq_true]
    intro hh
    exact h1 _ ((hexDigit_iff _ _).2 ⟨hh, rfl⟩)
  · rintro rfl; exact h2 (by decide)

theorem Hexadecimal.mantissa {w : Str} {x : ℚ} (h : Hexadecimal w x) (hp : c!"p" ∉ w) (hP : c!"P" ∉ w) : HexMantissa w x := by
  cases h with
  | int ha hne => exact .inl ⟨_, ha, hne, rfl⟩
  | point ha hne => exact .inr ⟨_, _, _, rfl, ha, hne, rfl⟩
  | exp _ _ _ hc _ => rcases hc with rfl | rfl <;> simp_all

theorem sixteen (k : Nat) : (2 : ℚ) ^ (-(4 * (k : Int))) = 1 / 16 ^ k := by
  rw [zpow_neg, zpow_mul, one_div]
  norm_num

theorem scanHex_hexadecimal {w rest : Str} {x : ℚ} (h : Hexadecimal w x) (hr : HexEnds rest) :
    scanHex (w ++ rest) = some (x, rest) := by
  have hd := hexEnds_not hr
  have hE : ∀ c ∈ rest.head?, c ≠ (112 : Byte) ∧ c ≠ (112 : Byte) - 32 := by
    intro c hc
    constructor <;> rintro rfl <;> exact (hr _ hc).2 (by decide)
  have plain : ∀ {w : Str} {x : ℚ}, HexMantissa w x → scanHex (w ++ rest) = some (x, rest) := by
    intro w x hm
    obtain ⟨a, b, h1, h2, h3⟩ := hexMantissa_scan hm hd
    unfold scanHex
    rw [h1]
    simp only [h2, scanExp_none hE, h3, Bool.false_eq_true, if_false]
    rw [zero_sub, sixteen]
    simp [div_eq_mul_inv]
  cases h with
  | int ha hne => exact plain (.inl ⟨_, ha, hne, rfl⟩)
  | point ha hne => exact plain (.inr ⟨_, _, _, rfl, ha, hne, rfl⟩)
  | exp hw hp hP hc hn =>
    rename_i w x e n k
    have hm := Hexadecimal.mantissa hw hp hP
    have hr2 : ∀ c ∈ (e :: n ++ rest).head?, isHexDigitC c = false ∧ c ≠ 46 := by
      rcases hc with rfl | rfl <;> simp <;> decide
    obtain ⟨a, b, h1, h2, h3⟩ := hexMantissa_scan hm hr2
    have hdig : ∀ c ∈ rest.head?, ¬ (48 ≤ c.toNat ∧ c.toNat ≤ 57) := by
      intro c hc hh
      exact (hr c hc).1 (c.toNat - 48) (.inl ⟨by omega, by omega⟩)
    obtain ⟨m, neg, h4, h5, _⟩ := scanNumber_numeral hn hdig
    have h6 : scanExp 112 (e :: n ++ rest) = (k, rest) := by
      unfold scanExp
      rw [if_pos]
      · simp only [List.cons_append, List.tail_cons, h4, h5]
      · rcases hc with rfl | rfl
        · left; rfl
        · right; rfl
    unfold scanHex
    rw [List.append_assoc, h1]
    simp only [h2, h6, h3, Bool.false_eq_true, if_false]
    rw [sub_eq_add_neg, zpow_add₀ (by norm_num), sixteen]
    congr 2
    ring

theorem hexadecimal_nonneg {w : Str} {x : ℚ} (h : Hexadecimal w x) : 0 ≤ x := by
  induction h with
  | int _ => positivity
  | point _ _ => positivity
  | exp _ _ _ _ _ ih => positivity

theorem hexDigits_ne_zero {w : Str} {n : Nat} (h : HexDigits w n) : ∀ c ∈ w, c ≠ 0 := by
  rintro c hc rfl
  have := (hexDigits_spec h).1 0 hc
  revert this; decide

theorem hexadecimal_ne_zero {w : Str} {x : ℚ} (h : Hexadecimal w x) : ∀ c ∈ w, c ≠ 0 := by
  induction h with
  | int h _ => exact hexDigits_ne_zero h
  | point h _ =>
    rename_i a b n _
    intro c hc
    have := hexDigits_ne_zero h
    rcases List.mem_append.1 hc with hc | hc
    · exact this c (by simp [hc])
    · rcases List.mem_cons.1 hc with rfl | hc
      · decide
      · exact this c (by simp [hc])
  | exp _ _ _ hc hn ih =>
    intro c hcc
    rcases List.mem_append.1 hcc with h | h
    · exact ih c h
    · rcases List.mem_cons.1 h with rfl | h
      · rcases hc with rfl | rfl <;> decide
      · rcases (Numeral.chars hn).2 c h with ⟨h, _⟩
        rintro rfl
        revert h; decide

theorem strtod_hex (f : Fmt) {ws sign w rest : Str} {X : Byte} {x : ℚ} (hws : ∀ c ∈ ws, IsSpace c)
    (hs : sign = [] ∨ sign = [43] ∨ sign = [45]) (hX : X = c!"x" ∨ X = c!"X") (h : Hexadecimal w x) (hr : HexEnds rest) :
    strtod f (ws ++ sign ++ (48 :: X :: w) ++ rest) =
      some ((f.convert (sign == [45]) x).1, (f.convert (sign == [45]) x).2, rest) := by
  have e : ws ++ sign ++ (48 :: X :: w) ++ rest = ws ++ sign ++ (48 :: X :: (w ++ rest)) := by simp
  rw [e, strtod_body f hws hs rfl (by decide) (by decide) (by decide)]
  unfold strtodBody
  have hx : lowerC X = 120 := by rcases hX with rfl | rfl <;> decide
  have h0 : lowerC 48 = 48 := by decide
  have hi : ∀ v u, v ≠ 48 → hasWord (v :: u) (48 :: X :: (w ++ rest)) = false := by
    intro v u hv
    simp [hasWord, h0, Ne.symm hv]
  have h1 : hasWord b!"infinity" (48 :: X :: (w ++ rest)) = false := hi _ _ (by decide)
  have h2 : hasWord b!"inf" (48 :: X :: (w ++ rest)) = false := hi _ _ (by decide)
  have h3 : hasWord b!"nan" (48 :: X :: (w ++ rest)) = false := hi _ _ (by decide)
  have h4 : hasWord b!"0x" (48 :: X :: (w ++ rest)) = true := by
    show (([48, X] : Str).map lowerC == ([48, 120] : Str)) = true
    simp [h0, hx]
  have h5 : List.drop 2 (48 :: X :: (w ++ rest)) = w ++ rest := rfl
  simp only [h1, h2, h3, h4, h5, Bool.false_eq_true, if_false, if_true, scanHex_hexadecimal h hr]
  rfl

theorem hexEnds_cstr {rest : Str} (h : HexEnds rest) : HexEnds (cstr rest) := by
  intro c hc
  cases rest with
  | nil => simp [cstr] at hc
  | cons d ds =>
    by_cases hd : d = 0
    · simp [cstr, hd] at hc
    · refine h c ?_
      rw [cstr, List.takeWhile_cons_of_pos (by simpa using hd)] at hc
      exact hc

/-! ## Words -/

theorem sameWord_iff {w v : Str} (hv : ∀ d ∈ v, 97 ≤ d.toNat ∧ d.toNat ≤ 122) : SameWord w v ↔ w.map lowerC = v := by
  have key : ∀ c d : Byte, 97 ≤ d.toNat ∧ d.toNat ≤ 122 → ((c = d ∨ c.toNat + 32 = d.toNat) ↔ lowerC c = d) := by
    intro c d hd
    have k : ∀ n : Nat, n < 256 → (lowerC (UInt8.ofNat n)).toNat = if 65 ≤ n ∧ n ≤ 90 then n + 32 else n := by decide +kernel
    have kc := k c.toNat c.toNat_lt
    have e : UInt8.ofNat c.toNat = c := by simp
    rw [e] at kc
    rw [← UInt8.toNat_inj, ← UInt8.toNat_inj, kc]
    split <;> omega
  unfold SameWord
  induction w generalizing v with
  | nil =>
    cases v <;> simp
  | cons c w ih =>
    cases v with
    | nil => simp
    | cons d v =>
      simp only [List.forall₂_cons, List.map_cons, List.cons.injEq, key c d (hv d (by simp)),
        ih (v := v) fun d hd => hv d (by simp [hd])]

theorem hasWord_append {w v : Str} (h : w.map lowerC = v) (rest : Str) : hasWord v (w ++ rest) = true := by
  subst h
  simp [hasWord]

/-- A letter, digit or underscore. -/
theorem nanText_stop {t : Str} (h : ∀ c ∈ t, isDigitC c = true ∨ (97 ≤ lowerC c ∧ lowerC c ≤ 122) ∨ c = 95) (rest : Str) :
    skipNanText (40 :: t ++ 41 :: rest) = rest := by
  have e : (t ++ 41 :: rest).dropWhile (fun c => isDigitC c || (97 ≤ lowerC c && lowerC c ≤ 122) || c == 95) = 41 :: rest := by
    apply dropWhile_append_stop
    · intro c hc; simpa [or_assoc] using h c hc
    · simp; decide
  simp only [skipNanText, List.cons_append, List.tail_cons, List.head?_cons, e, and_self, if_true]

theorem skipNanText_none {rest : Str} (h : rest.head? ≠ some 40) : skipNanText rest = rest := by
  simp [skipNanText, h]

theorem hasWord_head {v : Byte} {u p : Str} {c : Byte} {cs : Str} (hp : p = c :: cs) (h : lowerC c ≠ v) :
    hasWord (v :: u) p = false := by
  subst hp
  simp [hasWord, h]

theorem sameWord_head {w : Str} {v : Byte} {u : Str} (h : SameWord w (v :: u)) (hv : 97 ≤ v.toNat ∧ v.toNat ≤ 122) :
    ∃ c cs, w = c :: cs ∧ lowerC c = v ∧ isSpaceC c = false ∧ c ≠ 43 ∧ c ≠ 45 ∧ c ≠ 0 := by
  have hh : ∀ c : Byte, 97 ≤ (lowerC c).toNat ∧ (lowerC c).toNat ≤ 122 → isSpaceC c = false ∧ c ≠ 43 ∧ c ≠ 45 ∧ c ≠ 0 :=
    byte_all (by decide +kernel)
  cases h with
  | cons hc _ =>
    rename_i c w _
    have : lowerC c = v := by
      have := (sameWord_iff (w := [c]) (v := [v]) (by simpa using hv)).1 (.cons hc .nil)
      simpa using this
    exact ⟨c, w, rfl, this, hh c (by rw [this]; exact hv)⟩

theorem strtod_infinity (f : Fmt) {ws sign w rest : Str} (hws : ∀ c ∈ ws, IsSpace c) (hs : sign = [] ∨ sign = [43] ∨ sign = [45])
    (h : SameWord w b!"infinity" ∨ (SameWord w b!"inf" ∧ hasWord b!"inity" rest = false)) :
    strtod f (ws ++ sign ++ (w ++ rest)) = some (.inf (sign == [45]), false, rest) := by
  have hd : ∃ c cs, w = c :: cs ∧ lowerC c = c!"i" ∧ isSpaceC c = false ∧ c ≠ 43 ∧ c ≠ 45 ∧ c ≠ 0 := by
    rcases h with h | h
    · exact sameWord_head h (by decide)
    · exact sameWord_head h.1 (by decide)
  obtain ⟨c, cs, hw, h1, h2, h3, h4, _⟩ := hd
  rw [strtod_body f hws hs (c := c) (cs := cs ++ rest) (by rw [hw]; rfl) h2 h3 h4]
  unfold strtodBody
  rcases h with h | ⟨h, hr⟩
  · rw [if_pos (hasWord_append ((sameWord_iff (by decide)).1 h) rest)]
    have hl : w.length = 8 := by
      have := congrArg List.length ((sameWord_iff (by decide)).1 h)
      simpa using this
    rw [List.drop_append_of_le_length (by omega), List.drop_of_length_le (by omega)]
    rfl
  · have hm := (sameWord_iff (by decide)).1 h
    have hl : w.length = 3 := by
      have := congrArg List.length hm
      simpa using this
    have hn : ¬ hasWord b!"infinity" (w ++ rest) = true := by
      intro hh
      have e : (w ++ rest).take 8 = w ++ rest.take 5 := by
        rw [List.take_append, hl, List.take_of_length_le (by omega)]
      have h8 : ((w ++ rest).take 8).map lowerC = b!"infinity" := by simpa [hasWord] using hh
      rw [e, List.map_append, hm] at h8
      have h5 : (rest.take 5).map lowerC = b!"inity" := List.append_cancel_left (as := b!"inf") h8
      have : hasWord b!"inity" rest = true := by simpa [hasWord] using h5
      rw [hr] at this; cases this
    rw [if_neg hn, if_pos (hasWord_append hm rest), List.drop_append_of_le_length (by omega), List.drop_of_length_le (by omega)]
    rfl

theorem strtod_nan (f : Fmt) {ws sign w rest : Str} (hws : ∀ c ∈ ws, IsSpace c) (hs : sign = [] ∨ sign = [43] ∨ sign = [45])
    (h : SameWord w b!"nan") : strtod f (ws ++ sign ++ (w ++ rest)) = some (.nan (sign == [45]), false, skipNanText rest) := by
  obtain ⟨c, cs, hw, h1, h2, h3, h4, _⟩ := sameWord_head h (by decide)
  have hp : w ++ rest = c :: (cs ++ rest) := by rw [hw]; rfl
  have hi : lowerC c ≠ c!"i" := by rw [h1]; decide
  rw [strtod_body f hws hs hp h2 h3 h4]
  unfold strtodBody
  have hm := (sameWord_iff (by decide)).1 h
  have hl : w.length = 3 := by
    have := congrArg List.length hm
    simpa using this
  have n1 : hasWord b!"infinity" (w ++ rest) = false := hasWord_head hp hi
  have n2 : hasWord b!"inf" (w ++ rest) = false := hasWord_head hp hi
  simp only [n1, n2, hasWord_append hm rest, Bool.false_eq_true, if_false, if_true]
  rw [List.drop_append_of_le_length (by omega), List.drop_of_length_le (by omega)]
  rfl

theorem sameWord_ne_zero {w v : Str} (h : SameWord w v) (hv : ∀ d ∈ v, 97 ≤ d.toNat ∧ d.toNat ≤ 122) : ∀ c ∈ w, c ≠ 0 := by
  have hm := (sameWord_iff hv).1 h
  rintro c hc rfl
  have := hv (lowerC 0) (by rw [← hm]; exact List.mem_map_of_mem hc)
  revert this; decide

theorem cstr_signed {ws sign p rest : Str} (hws : ∀ c ∈ ws, IsSpace c) (hs : sign = [] ∨ sign = [43] ∨ sign = [45])
    (hp : ∀ c ∈ p, c ≠ 0) : cstr (ws ++ sign ++ (p ++ rest)) = ws ++ sign ++ (p ++ cstr rest) := by
  have : ws ++ sign ++ (p ++ rest) = (ws ++ sign ++ p) ++ rest := by simp
  rw [this, cstr_append]
  · simp
  · intro c hc
    rcases List.mem_append.1 hc with hc | hc
    · rcases List.mem_append.1 hc with hc | hc
      · exact space_ne_zero (hws c hc)
      · rcases hs with rfl | rfl | rfl <;> simp at hc <;> rw [hc] <;> decide
    · exact hp c hc

end Flut
