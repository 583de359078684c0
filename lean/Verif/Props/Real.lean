import Verif.Proofs.RealWords
import Verif.Props.PropCast

/-!
# C82: real numbers as text
-/

namespace Flut

open Spec

/-- The finite values of a format, by magnitude: binary fractions up to the largest one. -/
def Fmt.Holds (f : Fmt) (m : ℚ) : Prop := 0 ≤ m ∧ m ≤ f.maxVal ∧ IsBinary f.prec f.emin m

/-- A finite value is written as the nearest decimal number with exactly six decimals, after a minus sign if it is negative. -/
theorem C82_text (neg : Bool) (m : ℚ) (h : 0 ≤ m) :
    ∃ a b q, realTo (.fin neg m) = (if neg then b!"-" else []) ++ (a ++ c!"." :: b) ∧ IsDigits a ∧ IsDigits b ∧ b.length = 6 ∧
      Decimal (a ++ c!"." :: b) q ∧ Nearest (IsMultiple (1 / 1000000)) m q := by
  have hp := pad6_spec (n := (roundEven (m * 1000000)).toNat % 1000000) (Nat.mod_lt _ (by norm_num))
  refine ⟨_, _, round6 m, ?_, (natStr_digits ((roundEven (m * 1000000)).toNat / 1000000)).1, ⟨?_, hp.2.2⟩, hp.1, fixed6_decimal _, ?_, ?_⟩
  · simp [realTo, fixed6]
  · intro h0; rw [h0] at hp; simp at hp
  · exact ⟨(roundEven (m * 1000000)).toNat, by unfold round6; push_cast; ring⟩
  · rintro z ⟨n, rfl⟩
    have h1 := roundEven_nearest (m * 1000000) n
    rw [round6_eq h]
    have e : ∀ k : ℚ, k * (1 / 1000000) - m = (k - m * 1000000) * (1 / 1000000) := by intro k; ring
    rw [div_eq_mul_one_div, e, e, abs_mul, abs_mul]
    exact mul_le_mul_of_nonneg_right h1 (abs_nonneg _)

example : realTo (.fin true (3 / 7)) = b!"-0.428571" := by decide +kernel
example : realTo (.fin false 1234567) = b!"1234567.000000" := by decide +kernel

/-- A decimal number, after blanks and a sign and before anything that is not part of it, is read as the nearest value of the
format; in a tie as the one with an even significand. Values beyond the largest one, and values with too few bits left, are
reported as out of range. -/
theorem C82_read (f : Fmt) (hf : f = .double ∨ f = .single) (ws sign w rest : Str) (q : ℚ) (hws : ∀ c ∈ ws, IsSpace c)
    (hs : sign = [] ∨ sign = b!"+" ∨ sign = b!"-") (h : Decimal w q) (hr : Ends rest) :
    ∃ y, Nearest (IsBinary f.prec f.emin) q y ∧
      (∀ z, IsBinary f.prec f.emin z → z ≠ y → |z - q| = |y - q| → IsBinary (f.prec - 1) (f.emin + 1) y) ∧
      realFrom f (ws ++ sign ++ w ++ rest) =
        if f.maxVal < y ∨ (y ≠ q ∧ q < 2 ^ (f.emin + f.prec - 1)) then .throws .outOfRange
        else .ok (.fin (sign == b!"-") y) := by
  have hq := decimal_nonneg h
  have hp : 1 ≤ f.prec ∧ 2 ≤ f.prec := by rcases hf with rfl | rfl <;> decide
  refine ⟨f.rnd q, f.rnd_nearest hp.1 hq, fun z hz hne ht => f.rnd_tie hp.2 hq hz hne ht, ?_⟩
  unfold realFrom stod
  rw [cstr_decimal hws hs h rest, strtod_decimal f hws hs h (ends_cstr hr)]
  unfold Fmt.convert
  have e : (2 : ℚ) ^ (f.emin + f.prec - 1) = f.minNormal := by unfold Fmt.minNormal; congr 1; omega
  rw [e]
  by_cases h1 : f.maxVal < f.rnd q
  · simp [h1]
  · by_cases h2 : f.rnd q ≠ q ∧ q < f.minNormal
    · simp [h1, h2]
    · simp only [if_neg h1, h1, h2, decide_false, Bool.false_eq_true, if_false, or_self]

example : realFrom .double b!"\t-12.5e-1 m" = .ok (.fin true (5 / 4)) := by decide +kernel
example : realFrom .double b!"0.1" = .ok (.fin false (3602879701896397 / 36028797018963968)) := by decide +kernel
example : Decimal b!"12.5e-1" (5 / 4) := by
  have := Decimal.exp (e := c!"e") (Decimal.point (a := b!"12") (b := b!"5") (by decide) (by decide) (by decide)) (by decide)
    (by decide) (.inl rfl) (Numeral.minus (ds := b!"1") (by decide))
  have e : ((decValue (b!"12" ++ b!"5") : ℚ) / 10 ^ (b!"5").length) * 10 ^ (-(decValue b!"1" : Int)) = 5 / 4 := by decide +kernel
  rw [e] at this
  exact this
example : realFrom .single b!"1e39" = .throws .outOfRange ∧ realFrom .double b!"1e-310" = .throws .outOfRange := by
  decide +kernel

/-- Without a number at the front the text is rejected, and only then. -/
theorem C82_invalid (f : Fmt) (ws sign p : Str) (hws : ∀ c ∈ ws, IsSpace c) (hs : sign = [] ∨ sign = b!"+" ∨ sign = b!"-")
    (hp : sign = [] → ∀ c ∈ p.head?, ¬ IsSpace c ∧ c ∉ b!"+-") (h0 : ∀ c ∈ p, c ≠ 0) :
    realFrom f (ws ++ sign ++ p) = .throws .invalidArgument ↔ ¬ NumberStart p := by
  have hc : cstr (ws ++ sign ++ p) = ws ++ sign ++ p := by
    have := cstr_append (a := ws ++ sign ++ p) (b := []) (by
      intro c hc
      rcases List.mem_append.1 hc with hc | hc
      · rcases List.mem_append.1 hc with hc | hc
        · exact space_ne_zero (hws c hc)
        · rcases hs with rfl | rfl | rfl <;> simp at hc <;> rw [hc] <;> decide
      · exact h0 c hc)
    simpa [cstr] using this
  rw [← strtod_none f hws hs hp]
  unfold realFrom stod
  rw [hc]
  cases strtod f (ws ++ sign ++ p) with
  | none => simp
  | some r =>
    obtain ⟨v, e, t⟩ := r
    cases e <;> simp

example : realFrom .double b!" -.e5" = .throws .invalidArgument := by decide +kernel
example : ¬ NumberStart b!".e5" := by
  rintro (⟨c, cs, e, h⟩ | ⟨c, cs, e, h⟩ | ⟨a, b, c, cs, e, h⟩)
  · injection e with e _; subst e; revert h; decide
  · injection e with _ e; injection e with e _; subst e; revert h; decide
  · injection e with e _; subst e; simp at h

/-- Writing and reading a finite value gives, with the same sign, a value that is nearest to the decimal number nearest to
it. It differs from the original by at most a millionth. -/
theorem C82_round_trip_partial (f : Fmt) (hf : f = .double ∨ f = .single) (neg : Bool) (m : ℚ) (h : f.Holds m) :
    ∃ v y, Nearest (IsMultiple (1 / 1000000)) m v ∧ Nearest (IsBinary f.prec f.emin) v y ∧ f.Holds y ∧ |y - m| ≤ 1 / 1000000 ∧
      realFrom f (realTo (.fin neg m)) = .ok (.fin neg y) := by
  have hu := usual hf
  have hp : 1 ≤ f.prec := by have := hu.prec; omega
  obtain ⟨h0, hmax, hb⟩ := h
  have hnear := f.rnd_nearest hp (round6_nonneg m)
  refine ⟨round6 m, f.rnd (round6 m), ?_, hnear, ⟨f.rnd_nonneg (round6_nonneg m), hu.in_range m h0 hb hmax, hnear.1⟩, ?_,
    round_trip hf neg h0 hmax hb⟩
  · obtain ⟨a, b, q, _, _, _, _, _, h⟩ := C82_text neg m h0
    refine ⟨⟨(roundEven (m * 1000000)).toNat, by unfold round6; push_cast; ring⟩, ?_⟩
    exact round6_nearest h0
  · have h1 := hnear.2 m hb
    have h2 := round6_near h0
    have h3 := abs_sub_le (f.rnd (round6 m)) (round6 m) m
    rw [abs_sub_comm m] at h1
    linarith

/-- Nothing is lost when the value has at most six decimals, or is at least `2^33` for `double` and 16 for `float`. -/
theorem C82_exact_partial (f : Fmt) (hf : f = .double ∨ f = .single) (neg : Bool) (m : ℚ) (h : f.Holds m)
    (hm : IsMultiple (1 / 1000000) m ∨ (f = .double ∧ 2 ^ 33 ≤ m) ∨ (f = .single ∧ 16 ≤ m)) :
    realFrom f (realTo (.fin neg m)) = .ok (.fin neg m) := by
  have hu := usual hf
  have hp : 1 ≤ f.prec := by have := hu.prec; omega
  obtain ⟨h0, hmax, hb⟩ := h
  rw [round_trip hf neg h0 hmax hb]
  have mult : IsMultiple (1 / 1000000) m → f.rnd (round6 m) = m := by
    rintro ⟨n, hn⟩
    have h1 := round6_nearest h0 m ⟨n, hn⟩
    rw [sub_self, abs_zero] at h1
    have h2 : round6 m = m := sub_eq_zero.1 (abs_eq_zero.1 (le_antisymm h1 (abs_nonneg _)))
    rw [h2]
    exact f.rnd_self hp h0 hb
  have large : 2 ^ ((f.prec : Int) - 20) ≤ m → f.rnd (round6 m) = m := by
    intro h
    rcases h.lt_or_eq with h | h
    · exact f.rnd_keep hp hb (round6_nonneg m) (round6_near h0) h
    · apply mult
      rw [← h, hu.bound]
      exact ⟨((2 ^ (f.prec - 20) : ℕ) : Int) * 1000000, by push_cast; ring⟩
  have : f.rnd (round6 m) = m := by
    rcases hm with hm | ⟨rfl, hm⟩ | ⟨rfl, hm⟩
    · exact mult hm
    · apply large
      refine le_trans (le_of_eq ?_) hm
      norm_num [Fmt.double]
    · apply large
      refine le_trans (le_of_eq ?_) hm
      norm_num [Fmt.single]
  rw [this]

example : Fmt.double.Holds (5 / 4) ∧ IsMultiple (1 / 1000000) (5 / 4) :=
  ⟨⟨by norm_num, by decide +kernel, 5, -2, by decide, by decide, by norm_num⟩, 1250000, by norm_num⟩

/-- Infinities and not-a-number are written as the words for them, and survive. -/
theorem C82_special (f : Fmt) (neg : Bool) :
    realTo (.inf neg) = (if neg then b!"-inf" else b!"inf") ∧ realTo (.nan neg) = (if neg then b!"-nan" else b!"nan") ∧
    realFrom f (realTo (.inf neg)) = .ok (.inf neg) ∧ realFrom f (realTo (.nan neg)) = .ok (.nan neg) := by
  cases neg <;> exact ⟨rfl, rfl, rfl, rfl⟩

/-- Writing what was read gives the same text, so the second trip loses nothing more. -/
theorem C82_stable (f : Fmt) (hf : f = .double ∨ f = .single) (neg : Bool) (m : ℚ) (h : f.Holds m) (y : Flt)
    (hy : realFrom f (realTo (.fin neg m)) = .ok y) : realTo y = realTo (.fin neg m) ∧ realFrom f (realTo y) = .ok y := by
  have hu := usual hf
  obtain ⟨h0, hmax, hb⟩ := h
  have e := round_trip hf neg h0 hmax hb
  rw [hy] at e
  have e : y = .fin neg (f.rnd (round6 m)) := by injection e
  have h1 := hu.stable m h0 hb
  have h2 : realTo y = realTo (.fin neg m) := by
    have h3 : (roundEven (f.rnd (round6 m) * 1000000)).toNat = (roundEven (m * 1000000)).toNat := by
      unfold round6 at h1
      have h4 : ((roundEven (f.rnd (round6 m) * 1000000)).toNat : ℚ) = (roundEven (m * 1000000)).toNat := by
        have := congrArg (· * (1000000 : ℚ)) h1
        simpa [round6] using this
      exact_mod_cast h4
    rw [e]
    simp only [realTo, fixed6, h3]
  exact ⟨h2, by rw [h2]; exact hy⟩

example : ∃ y, realFrom .double (realTo (.fin false (3602879701896397 / 36028797018963968))) = .ok y :=
  ⟨.fin false (3602879701896397 / 36028797018963968), by decide +kernel⟩

/-- Not every value survives: any positive number below half a millionth is read back as zero. -/
theorem C82_refuted (f : Fmt) (hf : f = .double ∨ f = .single) (neg : Bool) (m : ℚ) (h : f.Holds m) (hm : m < 1 / 2000000) :
    realTo (.fin neg m) = realTo (.fin neg 0) ∧ realFrom f (realTo (.fin neg m)) = .ok (.fin neg 0) := by
  obtain ⟨h0, hmax, hb⟩ := h
  have h1 : round6 m = 0 := by
    have := round6_of_near (n := 0) h0 (by rw [abs_of_nonneg] <;> simp <;> linarith)
    simpa using this
  have h2 : (roundEven (m * 1000000)).toNat = 0 := by
    unfold round6 at h1
    have : ((roundEven (m * 1000000)).toNat : ℚ) = 0 := by linarith
    exact_mod_cast this
  constructor
  · have h3 : roundEven 0 = 0 := by exact_mod_cast roundEven_int 0
    simp only [realTo, fixed6, h2, zero_mul, h3, Int.toNat_zero]
  · rw [round_trip hf neg h0 hmax hb, h1, f.rnd_zero]

example : Fmt.double.Holds (1 / 2 ^ 30) ∧ (1 / 2 ^ 30 : ℚ) < 1 / 2000000 :=
  ⟨⟨by norm_num, by decide +kernel, 1, -30, by decide, by decide, by norm_num⟩, by norm_num⟩

/-- A larger example: the double nearest to 0.123456789 is read back as the one nearest to 0.123457. -/
theorem C82_digits_refuted : ∃ m, Fmt.double.Holds m ∧ realFrom .double b!"0.123456789" = .ok (.fin false m) ∧
    realFrom .double (realTo (.fin false m)) ≠ .ok (.fin false m) := by
  refine ⟨Fmt.double.rnd (123456789 / 1000000000), ⟨by decide +kernel, by decide +kernel, ?_⟩, by decide +kernel, by decide +kernel⟩
  exact Fmt.double.rnd_binary (by decide) (by norm_num)

/-- `char_stream >> double` reads the same values, and goes on behind the number and the delimiters that follow. Instead of
reporting a range error it gives infinity, or the value with fewer bits. -/
theorem C82_char_stream (f : Fmt) (hp : 1 ≤ f.prec) (s : CharStream) (ws sign w sep rest : Str) (q : ℚ) (hws : ∀ c ∈ ws, IsSpace c)
    (hs : sign = [] ∨ sign = b!"+" ∨ sign = b!"-") (h : Decimal w q) (hsep : ∀ c ∈ sep, c ∈ s.delims) (hr : Ends (sep ++ rest))
    (hrest : ∀ c ∈ rest.head?, c ≠ 0 ∧ c ∉ s.delims) (hin : s.rest = ws ++ sign ++ w ++ (sep ++ rest)) :
    ∃ y, Nearest (IsBinary f.prec f.emin) q y ∧
      s.readReal f = (if f.maxVal < y then .inf (sign == b!"-") else .fin (sign == b!"-") y,
        { s with rest := rest, eof := s.eof || rest.isEmpty }) := by
  refine ⟨f.rnd q, f.rnd_nearest hp (decimal_nonneg h), ?_⟩
  have h1 := strtod_decimal f hws hs h hr
  obtain ⟨⟨c, cs, hw, _⟩, _⟩ := decimal_chars h
  unfold CharStream.readReal
  rw [hin, h1]
  have hlen : (ws ++ sign ++ w ++ (sep ++ rest)).length - (sep ++ rest).length = (ws ++ sign ++ w).length := by simp; omega
  have hpos : (ws ++ sign ++ w).length ≠ 0 := by rw [hw]; simp
  simp only [hlen]
  congr 1
  · unfold Fmt.convert; split <;> rfl
  · unfold CharStream.processEnd
    rw [if_neg hpos, hin, List.drop_left]
    unfold CharStream.skipDelims
    simp only
    rw [dropWhile_append_stop]
    · unfold CharStream.testEof
      cases rest <;> simp
    · intro d hd; exact CharStream.strchr_iff.2 (.inr (hsep d hd))
    · intro d hd
      have := hrest d hd
      rw [← Bool.not_eq_true, CharStream.strchr_iff]
      rintro (h | h)
      · exact this.1 h
      · exact this.2 h

example : (CharStream.ofCStr b!"1e400  2").readReal .double = (.inf false, { CharStream.ofCStr b!"1e400  2" with rest := b!"2" }) := by
  decide +kernel

/-- If there is no number, `char_stream >> double` gives zero, sets the failure flag and stays where it is. -/
theorem C82_char_stream_none (f : Fmt) (s : CharStream) (ws sign p : Str) (hws : ∀ c ∈ ws, IsSpace c)
    (hs : sign = [] ∨ sign = b!"+" ∨ sign = b!"-") (hp : sign = [] → ∀ c ∈ p.head?, ¬ IsSpace c ∧ c ∉ b!"+-")
    (hn : ¬ NumberStart p) (hin : s.rest = ws ++ sign ++ p) :
    s.readReal f = (.fin false 0, { s with fail := true }) := by
  have h1 := (strtod_none f hws hs hp).2 hn
  rw [← hin] at h1
  rw [CharStream.readReal, h1]
  rfl

example : (CharStream.ofCStr b!"-.e5").readReal .double = (.fin false 0, { CharStream.ofCStr b!"-.e5" with fail := true }) := by
  decide +kernel

/-- Hexadecimal numbers, with the prefix `0x` or `0X`, are read as the nearest value too. -/
theorem C82_hex (f : Fmt) (hf : f = .double ∨ f = .single) (ws sign w rest : Str) (X : Byte) (q : ℚ) (hws : ∀ c ∈ ws, IsSpace c)
    (hs : sign = [] ∨ sign = b!"+" ∨ sign = b!"-") (hX : X = c!"x" ∨ X = c!"X") (h : Hexadecimal w q) (hr : HexEnds rest) :
    ∃ y, Nearest (IsBinary f.prec f.emin) q y ∧
      (∀ z, IsBinary f.prec f.emin z → z ≠ y → |z - q| = |y - q| → IsBinary (f.prec - 1) (f.emin + 1) y) ∧
      realFrom f (ws ++ sign ++ (c!"0" :: X :: w) ++ rest) =
        if f.maxVal < y ∨ (y ≠ q ∧ q < 2 ^ (f.emin + f.prec - 1)) then .throws .outOfRange
        else .ok (.fin (sign == b!"-") y) := by
  have hq := hexadecimal_nonneg h
  have hp : 1 ≤ f.prec ∧ 2 ≤ f.prec := by rcases hf with rfl | rfl <;> decide
  refine ⟨f.rnd q, f.rnd_nearest hp.1 hq, fun z hz hne ht => f.rnd_tie hp.2 hq hz hne ht, ?_⟩
  unfold realFrom stod
  have hz : ∀ c ∈ (48 :: X :: w : Str), c ≠ 0 := by
    intro c hc
    rcases List.mem_cons.1 hc with rfl | hc
    · decide
    · rcases List.mem_cons.1 hc with rfl | hc
      · rcases hX with rfl | rfl <;> decide
      · exact hexadecimal_ne_zero h c hc
  rw [List.append_assoc (ws ++ sign), cstr_signed hws hs hz, ← List.append_assoc (ws ++ sign), strtod_hex f hws hs hX h (hexEnds_cstr hr)]
  unfold Fmt.convert
  have e : (2 : ℚ) ^ (f.emin + f.prec - 1) = f.minNormal := by unfold Fmt.minNormal; congr 1; omega
  rw [e]
  by_cases h1 : f.maxVal < f.rnd q
  · simp [h1]
  · by_cases h2 : f.rnd q ≠ q ∧ q < f.minNormal
    · simp [h1, h2]
    · simp only [if_neg h1, h1, h2, decide_false, Bool.false_eq_true, if_false, or_self]

example : realFrom .double b!" -0x1.8p1;" = .ok (.fin true 3) := by decide +kernel
example : realFrom .double b!"0XfF" = .ok (.fin false 255) := by decide +kernel
example : Hexadecimal b!"1.8p1" 3 := by
  have h : HexDigits b!"18" 24 := (HexDigits.nil.snoc (c := c!"1") (v := 1) (.inl ⟨by decide, by decide⟩)).snoc (c := c!"8") (v := 8)
    (.inl ⟨by decide, by decide⟩)
  have := Hexadecimal.exp (p := c!"p") (Hexadecimal.point (a := b!"1") (b := b!"8") h (by decide)) (by decide) (by decide) (.inl rfl)
    (Numeral.pos (ds := b!"1") (by decide))
  have e : (((24 : ℕ) : ℚ) / 16 ^ (b!"8").length) * 2 ^ ((decValue b!"1" : Int)) = 3 := by decide +kernel
  rw [e] at this
  exact this

/-- The words `inf`, `infinity` and `nan` are read in any mixture of capitals. -/
theorem C82_words (f : Fmt) (ws sign w rest : Str) (hws : ∀ c ∈ ws, IsSpace c) (hs : sign = [] ∨ sign = b!"+" ∨ sign = b!"-") :
    ((SameWord w b!"inf" ∨ SameWord w b!"infinity") → realFrom f (ws ++ sign ++ (w ++ rest)) = .ok (.inf (sign == b!"-"))) ∧
    (SameWord w b!"nan" → realFrom f (ws ++ sign ++ (w ++ rest)) = .ok (.nan (sign == b!"-"))) := by
  unfold realFrom stod
  constructor
  · intro h
    have hz : ∀ c ∈ w, c ≠ 0 := by
      rcases h with h | h
      · exact sameWord_ne_zero h (by decide)
      · exact sameWord_ne_zero h (by decide)
    rw [cstr_signed hws hs hz]
    rcases h with h | h
    · by_cases hi : hasWord b!"inity" (cstr rest) = true
      · have h8 : SameWord (w ++ (cstr rest).take 5) b!"infinity" := by
          rw [sameWord_iff (by decide), List.map_append, (sameWord_iff (by decide)).1 h]
          have : ((cstr rest).take 5).map lowerC = b!"inity" := by simpa [hasWord] using hi
          rw [this]; decide
        have := strtod_infinity f (rest := (cstr rest).drop 5) hws hs (.inl h8)
        rw [List.append_assoc w, List.take_append_drop] at this
        rw [this]
        rfl
      · rw [strtod_infinity f hws hs (.inr ⟨h, by simpa using hi⟩)]
        rfl
    · rw [strtod_infinity f hws hs (.inl h)]
      rfl
  · intro h
    rw [cstr_signed hws hs (sameWord_ne_zero h (by decide)), strtod_nan f hws hs h]
    rfl

example : SameWord b!"InF" b!"inf" := .cons (.inr (by decide)) (.cons (.inl (by decide)) (.cons (.inr (by decide)) .nil))

/-- `char_stream >> double` goes on behind `nan`, together with letters, digits and underscores in parentheses. -/
theorem C82_nan_text (f : Fmt) (s : CharStream) (ws sign w t rest : Str) (hws : ∀ c ∈ ws, IsSpace c)
    (hs : sign = [] ∨ sign = b!"+" ∨ sign = b!"-") (h : SameWord w b!"nan")
    (ht : t = [] ∧ rest.head? ≠ some c!"(" ∨ ∃ u, t = c!"(" :: u ++ [c!")"] ∧ ∀ c ∈ u, (48 ≤ c.toNat ∧ c.toNat ≤ 57) ∨
      (65 ≤ c.toNat ∧ c.toNat ≤ 90) ∨ (97 ≤ c.toNat ∧ c.toNat ≤ 122) ∨ c = c!"_")
    (hrest : ∀ c ∈ rest.head?, c ≠ 0 ∧ c ∉ s.delims) (hin : s.rest = ws ++ sign ++ w ++ t ++ rest) :
    s.readReal f = (.nan (sign == b!"-"), { s with rest := rest, eof := s.eof || rest.isEmpty }) := by
  have hsk : skipNanText (t ++ rest) = rest := by
    rcases ht with ⟨rfl, h⟩ | ⟨u, rfl, h⟩
    · exact skipNanText_none h
    · have e : c!"(" :: u ++ [c!")"] ++ rest = 40 :: u ++ 41 :: rest := by simp
      rw [e]
      apply nanText_stop
      intro c hc
      have hh : ∀ c : Byte, (48 ≤ c.toNat ∧ c.toNat ≤ 57) ∨ (65 ≤ c.toNat ∧ c.toNat ≤ 90) ∨ (97 ≤ c.toNat ∧ c.toNat ≤ 122) ∨ c = 95 →
          isDigitC c = true ∨ (97 ≤ lowerC c ∧ lowerC c ≤ 122) ∨ c = 95 := byte_all (by decide +kernel)
      exact hh c (h c hc)
  have e : s.rest = ws ++ sign ++ (w ++ (t ++ rest)) := by rw [hin]; simp
  unfold CharStream.readReal
  rw [e, strtod_nan f hws hs h]
  simp only [hsk]
  have hlen : (ws ++ sign ++ (w ++ (t ++ rest))).length - rest.length = (ws ++ sign ++ w ++ t).length := by
    simp only [List.length_append]; omega
  have hl : w.length = 3 := by
    have := congrArg List.length ((sameWord_iff (by decide)).1 h)
    simpa using this
  have hpos : (ws ++ sign ++ w ++ t).length ≠ 0 := by simp only [List.length_append]; omega
  rw [hlen]
  congr 1
  unfold CharStream.processEnd
  rw [if_neg hpos, hin, List.drop_left]
  unfold CharStream.skipDelims
  simp only
  have := dropWhile_append_stop (p := strchr s.delims) (a := []) (b := rest) (by simp) (by
    intro d hd
    have := hrest d hd
    rw [← Bool.not_eq_true, CharStream.strchr_iff]
    rintro (h | h)
    · exact this.1 h
    · exact this.2 h)
  rw [List.nil_append] at this
  rw [this]
  unfold CharStream.testEof
  cases rest <;> simp

example : (CharStream.ofCStr b!"-NaN(a_1)x").readReal .double = (.nan true, { CharStream.ofCStr b!"-NaN(a_1)x" with rest := b!"x" }) := by
  decide +kernel

/-! ## C27 for real numbers -/

open PN

/-- A transform of real numbers comes back with every component moved by at most a millionth, its sign kept. -/
theorem C27_real_partial (f : Fmt) (hf : f = .double ∨ f = .single) (zero : Flt) (ofText : Str → Vec3 Flt → Res (Vec3 Flt))
    (t : Trans Flt) (ht : ∀ x ∈ [t.p.x, t.p.y, t.p.z, t.q.w, t.q.x, t.q.y, t.q.z], ∃ neg m, x = .fin neg m ∧ f.Holds m) :
    ∃ g : Flt → Flt, (∀ neg m, f.Holds m → ∃ y, g (.fin neg m) = .fin neg y ∧ |y - m| ≤ 1 / 1000000) ∧
      transFrom (castStr (realFrom f)) zero ofText (transTo (toStrNode realTo) t).clear =
        .ok { p := ⟨g t.p.x, g t.p.y, g t.p.z⟩, q := ⟨g t.q.w, g t.q.x, g t.q.y, g t.q.z⟩ } := by
  have hg : ∀ x, ∃ y, (∃ neg m, x = Flt.fin neg m ∧ f.Holds m) →
      realFrom f (realTo x) = .ok y ∧ ∀ neg m, x = .fin neg m → ∃ z, y = .fin neg z ∧ |z - m| ≤ 1 / 1000000 := by
    intro x
    by_cases hx : ∃ neg m, x = Flt.fin neg m ∧ f.Holds m
    · obtain ⟨neg, m, rfl, hm⟩ := hx
      obtain ⟨v, y, _, _, _, h1, h2⟩ := C82_round_trip_partial f hf neg m hm
      refine ⟨.fin neg y, fun _ => ⟨h2, ?_⟩⟩
      intro neg' m' e
      injection e with e1 e2
      subst e1 e2
      exact ⟨y, rfl, h1⟩
    · exact ⟨x, fun h => absurd h hx⟩
  choose g hg using hg
  refine ⟨g, ?_, ?_⟩
  · intro neg m hm
    obtain ⟨h1, h2⟩ := hg (.fin neg m) ⟨neg, m, rfl, hm⟩
    exact h2 neg m rfl
  · apply C27_transform
    intro x hx
    exact (hg x (ht x hx)).1

/-- Vectors of real numbers do not survive exactly: this one comes back as zero. -/
theorem C27_real_refuted : Fmt.double.Holds (1 / 2 ^ 30) ∧
    fromVec (castStr (realFrom .double)) (toVec (toStrNode realTo) [.fin false (1 / 2 ^ 30)]).clear = .ok [.fin false 0] := by
  have h : Fmt.double.Holds (1 / 2 ^ 30) := ⟨by norm_num, by decide +kernel, 1, -30, by decide, by decide, by norm_num⟩
  refine ⟨h, ?_⟩
  refine C27_vector (toStrNode realTo) (castStr (realFrom .double)) (fun _ => Flt.fin false 0) [Flt.fin false (1 / 2 ^ 30)] ?_
  intro x hx
  rw [List.mem_singleton.1 hx]
  exact (C82_refuted .double (.inl rfl) false _ h (by norm_num)).2

end Flut
