import Verif.Proofs.StreamReal
import Verif.Props.Real
import Verif.Model.BoundsText
import Mathlib.Data.List.TakeWhile

/-!
# C107: vectors, quaternions and angles as text
-/

namespace Flut

open Spec Stream

/-! ## Writing -/

/-- A finite value is written as the nearest decimal number with at most six digits, after a minus sign if it is negative. Of two that
are equally near, the one with an even sixth digit is taken. The text has no superfluous digits; it has an exponent if the number is
below 0.0001 or at least a million. -/
theorem C107_text (neg : Bool) (m : ℚ) (h : 0 ≤ m) :
    ∃ w q, realText (.fin neg m) = (if neg then b!"-" else []) ++ w ∧ Decimal w q ∧ Nearest SixDigits m q ∧
      (∀ z, SixDigits z → z ≠ q → |z - m| = |q - m| → ∃ (n : Nat) (k : Int), 50000 ≤ n ∧ n < 500000 ∧ q = (2 * n : Nat) * 10 ^ k) ∧
      Concise w q ∧ (c!"e" ∈ w ↔ q ≠ 0 ∧ (q < 1 / 10000 ∨ 1000000 ≤ q)) :=
  ⟨magText m, six m, rfl, magText_decimal h, six_near h, fun _ hz hne ht => six_tie h hz hne ht, magText_form h⟩

example : realText (.fin true (1 / 3)) = b!"-0.333333" := by decide +kernel
example : realText (.fin false 1234567) = b!"1.23457e+06" := by decide +kernel
example : realText (.fin false (1 / 2 ^ 20)) = b!"9.53674e-07" := by decide +kernel
/-- A tie: the last digit is even. -/
example : realText (.fin false (100000 + 1 / 2)) = b!"100000" ∧ realText (.fin false (100001 + 1 / 2)) = b!"100002" := by decide +kernel

/-- Whole numbers below a million are written as their digits. -/
theorem C107_whole (neg : Bool) (n : Nat) (h : n < 1000000) :
    ∃ w, realText (.fin neg n) = (if neg then b!"-" else []) ++ w ∧ IsDigits w ∧ decValue w = n ∧ (w.head? = some c!"0" → n = 0) := by
  have h0 : (0 : ℚ) ≤ n := by positivity
  have hq : six n = n := by
    have := (six_near h0).2 n ⟨n, 0, h, by simp⟩
    rw [sub_self, abs_zero] at this
    exact sub_eq_zero.1 (abs_eq_zero.1 (le_antisymm this (abs_nonneg _)))
  obtain ⟨h1, h2⟩ := magText_form h0
  have h3 := magText_decimal h0
  rw [hq] at h1 h2 h3
  have he : c!"e" ∉ magText n := by
    rw [h2]
    rintro ⟨hne, hc | hc⟩
    · have : n = 0 := by
        by_contra hn
        have : (1 : ℚ) ≤ n := by exact_mod_cast Nat.one_le_iff_ne_zero.2 hn
        linarith
      exact hne (by rw [this]; norm_num)
    · have : (n : ℚ) < 1000000 := by exact_mod_cast h
      linarith
  exact ⟨_, rfl, concise_digits h3 h1 he (magText_noE h0)⟩

example : realText (.fin false 120) = b!"120" := by decide +kernel

/-- Infinities and values that are not numbers. -/
theorem C107_special (neg : Bool) : realText (.inf neg) = (if neg then b!"-" else []) ++ b!"inf" ∧
    realText (.nan neg) = (if neg then b!"-" else []) ++ b!"nan" := ⟨rfl, rfl⟩

/-! ## Reading -/

/-- A decimal number in an input stream, possibly after white space, is read as the nearest value, and what follows stays in the
stream. A number that is too large gives the largest value and sets the failure flag. -/
theorem C107_read (f : Fmt) (hf : f = .double ∨ f = .single) (old : Flt) (ws sign w rest : Str) (q : ℚ) (hws : ∀ c ∈ ws, IsSpace c)
    (hs : sign = [] ∨ sign = b!"+" ∨ sign = b!"-") (h : Decimal w q) (hr : Ends rest) :
    ∃ y, Nearest (IsBinary f.prec f.emin) q y ∧
      (∀ z, IsBinary f.prec f.emin z → z ≠ y → |z - q| = |y - q| → IsBinary (f.prec - 1) (f.emin + 1) y) ∧
      (y ≤ f.maxVal → readReal f old ⟨ws ++ sign ++ w ++ rest, false⟩ = (.fin (sign == b!"-") y, ⟨rest, false⟩)) ∧
      (f.maxVal < y → readReal f old ⟨ws ++ sign ++ w ++ rest, false⟩ = (.fin (sign == b!"-") f.maxVal, ⟨rest, true⟩)) := by
  have hp : 1 ≤ f.prec ∧ 2 ≤ f.prec := by rcases hf with rfl | rfl <;> decide
  have hq := decimal_nonneg h
  have key := readReal_decimal f old hws hs h hr
  refine ⟨f.rnd q, f.rnd_nearest hp.1 hq, fun z hz hne ht => f.rnd_tie hp.2 hq hz hne ht, fun h1 => ?_, fun h1 => ?_⟩
  · rw [key, min_eq_left h1, decide_eq_false (not_lt.2 h1)]
  · rw [key, min_eq_right h1.le, decide_eq_true h1]

example : readReal .double (.fin false 7) ⟨b!" -2.5e1 3", false⟩ = (.fin true 25, ⟨b!" 3", false⟩) := by decide +kernel
example : readReal .single (.fin false 7) ⟨b!"1e39 3", false⟩ = (.fin false Fmt.single.maxVal, ⟨b!" 3", true⟩) := by decide +kernel

/-- Once reading has failed, or if nothing but white space is left, the variable keeps its value, and the stream is a failed one. -/
theorem C107_read_nothing (f : Fmt) (old : Flt) (s : In) (h : s.fail = true ∨ ∀ c ∈ s.rest, IsSpace c) :
    (readReal f old s).1 = old ∧ (readReal f old s).2.fail = true := by
  unfold readReal
  by_cases hf : s.fail = true
  · rw [if_pos hf]; exact ⟨rfl, hf⟩
  · rw [if_neg hf]
    have h' := h.resolve_left hf
    have : s.rest.dropWhile isSpaceC = [] := by
      rw [List.dropWhile_eq_nil_iff]
      exact fun c hc => streamSpace_iff.2 (h' c hc)
    simp [this]

example : readReal .double (.fin false 7) ⟨b!"  ", false⟩ = (.fin false 7, ⟨[], true⟩) := by decide +kernel

theorem strtod_sign_none (f : Fmt) {sign : Str} (hs : sign = [] ∨ sign = [43] ∨ sign = [45]) (t : Str) (ht : t = [] ∨ t = [46]) :
    strtod f (sign ++ t) = none := by
  rcases hs with rfl | rfl | rfl <;> rcases ht with rfl | rfl <;> rfl

/-- A text that does not begin with a number gives zero and sets the failure flag; that is so for `inf` and `nan` too. -/
theorem C107_read_no_number (f : Fmt) (old : Flt) (ws sign p : Str) (hws : ∀ c ∈ ws, IsSpace c)
    (hs : sign = [] ∨ sign = b!"+" ∨ sign = b!"-") (hne : sign ++ p ≠ []) (hp : sign = [] → ∀ c ∈ p.head?, ¬ IsSpace c ∧ c ∉ b!"+-")
    (h1 : ∀ c ∈ p.head?, ¬ (48 ≤ c.toNat ∧ c.toNat ≤ 57))
    (h2 : p.head? = some c!"." → ∀ c ∈ p.tail.head?, ¬ (48 ≤ c.toNat ∧ c.toNat ≤ 57)) :
    (readReal f old ⟨ws ++ sign ++ p, false⟩).1 = .fin false 0 ∧ (readReal f old ⟨ws ++ sign ++ p, false⟩).2.fail = true := by
  have e1 : (ws ++ sign ++ p).dropWhile isSpaceC = sign ++ p := by
    rw [List.append_assoc, dropWhile_append_stop]
    · intro d hd; exact streamSpace_iff.2 (hws d hd)
    · intro d hd
      rcases hs with rfl | rfl | rfl
      · rw [Bool.eq_false_iff]
        intro hc
        exact (hp rfl d hd).1 (streamSpace_iff.1 hc)
      · cases hd; decide
      · cases hd; decide
  have e2 : signPart (sign ++ p) = sign := by
    rcases hs with rfl | rfl | rfl
    · apply signPart_none
      intro c hc
      have := (hp rfl c hc).2
      constructor <;> rintro rfl <;> exact this (by decide)
    · rfl
    · rfl
  have e3 : p.takeWhile isDigitC = [] := by
    have := takeWhile_digits (a := []) (r := p) (by simp) h1
    simpa using this
  have e4 : ∃ t, (t = [] ∨ t = [46]) ∧ numPrefix (sign ++ p) = sign ++ t := by
    unfold numPrefix
    simp only [e2, List.drop_left, e3, List.length_nil, List.drop_zero]
    unfold pointPart
    split
    · rename_i hpt
      have : p.tail.takeWhile isDigitC = [] := by
        have := takeWhile_digits (a := []) (r := p.tail) (by simp) (h2 hpt)
        simpa using this
      exact ⟨[46], .inr rfl, by simp [this]⟩
    · exact ⟨[], .inl rfl, by simp⟩
  obtain ⟨t, ht, e4⟩ := e4
  unfold readReal
  simp only [e1, e4, strtod_sign_none f hs t ht]
  rw [if_neg (by simp), if_neg (by simpa using hne)]
  exact ⟨rfl, rfl⟩

example : readReal .double (.fin false 7) ⟨b!" -inf", false⟩ = (.fin false 0, ⟨b!"inf", true⟩) := by decide +kernel
example : readReal .double (.fin false 7) ⟨b!"x", false⟩ = (.fin false 0, ⟨b!"x", true⟩) := by decide +kernel

/-- So does a number with an exponent that has no digits, which `from_str< double >` reads up to the exponent. -/
theorem C107_read_bad_exponent (f : Fmt) (old : Flt) (w s rest : Str) (q : ℚ) (h : Decimal w q) (he : c!"e" ∉ w ∧ c!"E" ∉ w)
    (e : Byte) (hc : e = c!"e" ∨ e = c!"E") (hs : s = [] ∧ (∀ c ∈ rest.head?, c ∉ b!"+-") ∨ s = b!"+" ∨ s = b!"-")
    (hr : ∀ c ∈ rest.head?, ¬ (48 ≤ c.toNat ∧ c.toNat ≤ 57)) :
    (readReal f old ⟨w ++ e :: s ++ rest, false⟩).1 = .fin false 0 ∧ (readReal f old ⟨w ++ e :: s ++ rest, false⟩).2.fail = true := by
  have hhd : ∀ c ∈ (e :: s ++ rest).head?, ¬ (48 ≤ c.toNat ∧ c.toNat ≤ 57) ∧ c ≠ 46 := by
    intro c hc'
    cases hc'
    rcases hc with rfl | rfl <;> decide
  have hsgn : signPart (s ++ rest) = s := by
    rcases hs with ⟨rfl, hs⟩ | rfl | rfl
    · apply signPart_none
      intro c hc'
      have := hs c hc'
      constructor <;> rintro rfl <;> exact this (by decide)
    · rfl
    · rfl
  have hdig : rest.takeWhile isDigitC = [] := by
    have := takeWhile_digits (a := []) (r := rest) (by simp) hr
    simpa using this
  have e1 : expPart (e :: s ++ rest) = e :: s := by
    unfold expPart
    rw [if_pos (by rcases hc with rfl | rfl <;> simp)]
    simp [hsgn, hdig]
  have e2 := numPrefix_mant (sign := []) (.inl rfl) h he.1 he.2 hhd
  rw [e1] at e2
  simp only [List.nil_append] at e2
  obtain ⟨⟨c, cs, hw, hcc⟩, -⟩ := decimal_chars h
  have e3 : (w ++ (e :: s ++ rest)).dropWhile isSpaceC = w ++ (e :: s ++ rest) := by
    rw [hw, List.cons_append, List.dropWhile_cons_of_neg]
    intro hsp
    rcases streamSpace_iff.1 hsp with h | rfl | rfl | rfl
    · simp only [List.mem_cons, List.not_mem_nil, or_false] at h
      rcases h with rfl | rfl | rfl <;> revert hcc <;> decide
    all_goals revert hcc; decide
  have e4 : ∃ v b, strtod f (w ++ e :: s) = some (v, b, e :: s) := by
    have hx : scanExp 101 (e :: s) = (0, e :: s) := by
      unfold scanExp
      split
      · have : scanNumber s = none := by
          rcases hs with ⟨rfl, -⟩ | rfl | rfl <;> rfl
        simp [this]
      · rfl
    have hhd' : ∀ c ∈ (e :: s).head?, ¬ (48 ≤ c.toNat ∧ c.toNat ≤ 57) ∧ c ≠ 46 := by
      intro c hc'
      cases hc'
      rcases hc with rfl | rfl <;> decide
    obtain ⟨a, b, h1, h2, h3⟩ := mantissa_scan (Decimal.mantissa h he.1 he.2) hhd'
    have hsd : scanDecimal (w ++ e :: s) = some (q, e :: s) := by
      unfold scanDecimal
      rw [h1]
      simp only [h2, hx, h3]
      simp [zpow_neg, div_eq_mul_inv]
    have := strtod_scan f (ws := []) (sign := []) (by simp) (.inl rfl) h (by
      intro c hc'
      cases hc'
      rcases hc with rfl | rfl <;> decide) hsd
    exact ⟨_, _, by simpa using this⟩
  obtain ⟨v, b, e4⟩ := e4
  rw [show w ++ e :: s ++ rest = w ++ (e :: s ++ rest) by simp]
  unfold readReal
  simp only [e3, e2, e4]
  rw [if_neg (by simp), if_neg (by simp [hw])]
  cases v <;> exact ⟨rfl, rfl⟩

example : readReal .double (.fin false 7) ⟨b!"1e x", false⟩ = (.fin false 0, ⟨b!" x", true⟩) ∧
    realFrom .double b!"1e x" = .ok (.fin false 1) := by decide +kernel

/-! ## There and back -/

/-- The value `y` that comes back when `x` is written and read. -/
def ComesBack (f : Fmt) (x y : Flt) : Prop :=
  match x with
  | .fin neg m => ∃ q y', Nearest SixDigits m q ∧ Nearest (IsBinary f.prec f.emin) q y' ∧ y = .fin neg y'
  | x => y = x

theorem readReal_text {f : Fmt} (hf : f = .double ∨ f = .single) (old : Flt) {ws rest : Str} {neg : Bool} {m : ℚ}
    (h : IsFloat f (.fin neg m)) (hws : ∀ c ∈ ws, IsSpace c) (hr : Ends rest) :
    readReal f old ⟨ws ++ (realText (.fin neg m) ++ rest), false⟩ = (.fin neg (f.rnd (six m)), ⟨rest, false⟩) := by
  have h1 := six_le_max hf h.1 h.2.1
  have h2 := readReal_decimal f old (sign := if neg then [45] else []) hws (by cases neg <;> simp) (magText_decimal h.1) hr
  rw [min_eq_left h1, decide_eq_false (not_lt.2 h1)] at h2
  have e : ws ++ (realText (.fin neg m) ++ rest) = ws ++ (if neg then [45] else []) ++ magText m ++ rest := by
    simp [realText]
  rw [e, h2]
  cases neg <;> rfl

theorem comesBack_fin {f : Fmt} (hf : f = .double ∨ f = .single) {neg : Bool} {m : ℚ} (h : IsFloat f (.fin neg m)) :
    ComesBack f (.fin neg m) (.fin neg (f.rnd (six m))) :=
  ⟨six m, _, six_near h.1, f.rnd_nearest (prec_pos hf) (decimal_nonneg (magText_decimal h.1)), rfl⟩

theorem space_ends (r : Str) : Ends ([32] ++ r) := by
  intro c hc
  cases hc
  exact ⟨by decide, by decide⟩

theorem nil_ends : Ends [] := by
  intro c hc
  cases hc

theorem one_space : ∀ c ∈ [(32 : Byte)], IsSpace c := by
  intro c hc
  simp only [List.mem_singleton] at hc
  subst hc
  exact .inl (by decide)

theorem vec3_back {f : Fmt} (hf : f = .double ∨ f = .single) (old : Vec3 Flt) {a b c : Bool} {x y z : ℚ} (hx : IsFloat f (.fin a x))
    (hy : IsFloat f (.fin b y)) (hz : IsFloat f (.fin c z)) :
    readVec3 f old ⟨vec3Text ⟨.fin a x, .fin b y, .fin c z⟩, false⟩ =
      (⟨.fin a (f.rnd (six x)), .fin b (f.rnd (six y)), .fin c (f.rnd (six z))⟩, ⟨[], false⟩) := by
  have e : vec3Text ⟨.fin a x, .fin b y, .fin c z⟩ =
      [] ++ (realText (.fin a x) ++ ([32] ++ (realText (.fin b y) ++ ([32] ++ (realText (.fin c z) ++ []))))) := by
    simp [vec3Text]
  unfold readVec3
  rw [e, readReal_text hf old.x hx (by simp) (space_ends _)]
  simp only
  rw [readReal_text hf old.y hy one_space (space_ends _)]
  simp only
  rw [readReal_text hf old.z hz one_space nil_ends]

/-- A vector of finite numbers that is written to a stream is read back, with each number rounded to six digits. `from_str` of
`to_str` does the same. -/
theorem C107_vec3 (f : Fmt) (hf : f = .double ∨ f = .single) (v old : Vec3 Flt) (hx : ∃ q, Stands f v.x q) (hy : ∃ q, Stands f v.y q)
    (hz : ∃ q, Stands f v.z q) : ∃ v', readVec3 f old ⟨vec3Text v, false⟩ = (v', ⟨[], false⟩) ∧ vec3From f (vec3Text v) = v' ∧
      ComesBack f v.x v'.x ∧ ComesBack f v.y v'.y ∧ ComesBack f v.z v'.z := by
  have fin : ∀ x, (∃ q, Stands f x q) → ∃ s m, x = .fin s m ∧ IsFloat f (.fin s m) := by
    rintro x ⟨q, h1, h2⟩
    cases x with
    | fin s m => exact ⟨s, m, rfl, h1⟩
    | inf s => cases s <;> cases h2
    | nan s => cases h2
  obtain ⟨x, y, z⟩ := v
  obtain ⟨a, x, rfl, hx'⟩ := fin _ hx
  obtain ⟨b, y, rfl, hy'⟩ := fin _ hy
  obtain ⟨c, z, rfl, hz'⟩ := fin _ hz
  refine ⟨_, vec3_back hf old hx' hy' hz', ?_, comesBack_fin hf hx', comesBack_fin hf hy', comesBack_fin hf hz'⟩
  unfold vec3From
  rw [vec3_back hf _ hx' hy' hz']

example : vec3From .double (vec3Text ⟨.fin false (1 / 4), .fin true 3000000, .fin false (1 / 2 ^ 40)⟩) =
    ⟨.fin false (1 / 4), .fin true 3000000, .fin false (Fmt.double.rnd (909495 / 10 ^ 18))⟩ := by decide +kernel

/-- The numbers are not unchanged in general. -/
theorem C107_vec3_refuted : ∃ v : Vec3 Flt, Stands .double v.x 1 ∧ Stands .double v.y 2 ∧ Stands .double v.z 1234567 ∧
    vec3From .double (vec3Text v) ≠ v :=
  ⟨⟨.fin false 1, .fin false 2, .fin false 1234567⟩, ⟨⟨by norm_num, by decide +kernel, 1, 0, by decide, by decide, by norm_num⟩, rfl⟩,
    ⟨⟨by norm_num, by decide +kernel, 2, 0, by decide, by decide, by norm_num⟩, rfl⟩,
    ⟨⟨by norm_num, by decide +kernel, 1234567, 0, by decide, by decide, by norm_num⟩, rfl⟩, by decide +kernel⟩

/-- A value that was read from a number with at most six digits is unchanged by writing and reading it, unless it is so small that it
has fewer bits. -/
theorem C107_again (f : Fmt) (hf : f = .double ∨ f = .single) (old : Flt) (sign w : Str) (q : ℚ) (x : Flt)
    (hs : sign = [] ∨ sign = b!"+" ∨ sign = b!"-") (h : Decimal w q) (h6 : SixDigits q)
    (hq : q = 0 ∨ (2 : ℚ) ^ (f.emin + f.prec - 1) ≤ q) (hread : readReal f old ⟨sign ++ w, false⟩ = (x, ⟨[], false⟩)) (rest : Str)
    (hr : Ends rest) : readReal f old ⟨realText x ++ rest, false⟩ = (x, ⟨rest, false⟩) := by
  have h1 := readReal_decimal f old (ws := []) (rest := []) (by simp) hs h nil_ends
  rw [List.append_nil, List.nil_append, hread] at h1
  simp only [Prod.mk.injEq, In.mk.injEq, true_and] at h1
  obtain ⟨hx, hlt⟩ := h1
  have hle : f.rnd q ≤ f.maxVal := by
    by_contra hc
    rw [decide_eq_true (not_le.1 hc)] at hlt
    cases hlt
  rw [min_eq_left hle] at hx
  have hq0 := decimal_nonneg h
  have := readReal_text hf old (ws := []) (rest := rest) (neg := sign == [45]) (m := f.rnd q)
    ⟨f.rnd_nonneg hq0, hle, f.rnd_binary (prec_pos hf) hq0⟩ (by simp) hr
  rw [six_back hf h6 hq, ← hx] at this
  simpa using this

example : Decimal b!"0.1" (1 / 10) ∧ SixDigits (1 / 10) ∧ (2 : ℚ) ^ (Fmt.single.emin + Fmt.single.prec - 1) ≤ 1 / 10 ∧
    readReal .single (.fin false 0) ⟨b!"0.1", false⟩ = (.fin false (13421773 / 2 ^ 27), ⟨[], false⟩) := by
  refine ⟨?_, ⟨1, -1, by norm_num, by norm_num⟩, by decide +kernel, by decide +kernel⟩
  have := Decimal.point (a := b!"0") (b := b!"1") (by decide) (by decide) (by decide)
  have e : (decValue (b!"0" ++ b!"1") / 10 ^ (b!"1").length : ℚ) = 1 / 10 := by decide +kernel
  rwa [e] at this

/-- If the first number of a vector is infinite or not a number, nothing of the vector is read back: `from_str` of `to_str` is the zero
vector. -/
theorem C107_infinite_refuted (f : Fmt) (x y z : Flt) (h : ∀ s m, x ≠ .fin s m) :
    vec3From f (vec3Text ⟨x, y, z⟩) = ⟨.fin false 0, .fin false 0, .fin false 0⟩ := by
  have key : ∀ r : Str, (readReal f (.fin false 0) ⟨realText x ++ r, false⟩).1 = .fin false 0 ∧
      (readReal f (.fin false 0) ⟨realText x ++ r, false⟩).2.fail = true := by
    intro r
    have gen : ∀ (s : Bool) (c : Byte) (w : Str), c = c!"i" ∨ c = c!"n" →
        (readReal f (.fin false 0) ⟨((if s then [45] else []) ++ c :: w) ++ r, false⟩).1 = .fin false 0 ∧
        (readReal f (.fin false 0) ⟨((if s then [45] else []) ++ c :: w) ++ r, false⟩).2.fail = true := by
      intro s c w hc
      have := C107_read_no_number f (.fin false 0) [] (if s then [45] else []) (c :: w ++ r) (by simp) (by cases s <;> simp) (by simp)
        (by
          intro _ d hd
          cases hd
          refine ⟨?_, by rcases hc with rfl | rfl <;> decide⟩
          rcases hc with rfl | rfl <;> (unfold IsSpace; decide))
        (by intro d hd; cases hd; rcases hc with rfl | rfl <;> decide)
        (by intro hd; rcases hc with rfl | rfl <;> cases hd)
      simpa using this
    cases x with
    | fin s m => exact absurd rfl (h s m)
    | inf s => exact gen s _ _ (.inl rfl)
    | nan s => exact gen s _ _ (.inr rfl)
  have h1 := key (b!" " ++ realText y ++ b!" " ++ realText z)
  have e : vec3Text ⟨x, y, z⟩ = realText x ++ (b!" " ++ realText y ++ b!" " ++ realText z) := by simp [vec3Text]
  rw [← e] at h1
  unfold vec3From readVec3
  simp only
  generalize readReal f (.fin false 0) ⟨vec3Text ⟨x, y, z⟩, false⟩ = r1 at h1 ⊢
  obtain ⟨v1, s1⟩ := r1
  obtain ⟨rfl, hs1⟩ := h1
  obtain ⟨h2, h3⟩ := C107_read_nothing f (.fin false 0) s1 (.inl hs1)
  generalize readReal f (.fin false 0) s1 = r2 at h2 h3 ⊢
  obtain ⟨v2, s2⟩ := r2
  obtain rfl := h2
  obtain ⟨h4, -⟩ := C107_read_nothing f (.fin false 0) s2 (.inl h3)
  simp only at h4 ⊢
  rw [h4]

example : vec3From .double (vec3Text ⟨.inf false, .fin false 1, .fin false 2⟩) = ⟨.fin false 0, .fin false 0, .fin false 0⟩ := by
  decide +kernel

/-- A quaternion is written as four numbers, the real part first, and four numbers can be read from the text. -/
theorem C107_quat (f : Fmt) (hf : f = .double ∨ f = .single) (q : Quat Flt) (old : Flt) (hw : ∃ r, Stands f q.w r)
    (hx : ∃ r, Stands f q.x r) (hy : ∃ r, Stands f q.y r) (hz : ∃ r, Stands f q.z r) :
    ∃ w x y z s1 s2 s3 s4, readReal f old ⟨quatText q, false⟩ = (w, s1) ∧ readReal f old s1 = (x, s2) ∧ readReal f old s2 = (y, s3) ∧
      readReal f old s3 = (z, s4) ∧ s4 = ⟨[], false⟩ ∧ ComesBack f q.w w ∧ ComesBack f q.x x ∧ ComesBack f q.y y ∧ ComesBack f q.z z := by
  have fin : ∀ x, (∃ q, Stands f x q) → ∃ s m, x = .fin s m ∧ IsFloat f (.fin s m) := by
    rintro x ⟨q, h1, h2⟩
    cases x with
    | fin s m => exact ⟨s, m, rfl, h1⟩
    | inf s => cases s <;> cases h2
    | nan s => cases h2
  obtain ⟨w, x, y, z⟩ := q
  obtain ⟨d, w, rfl, hw'⟩ := fin _ hw
  obtain ⟨a, x, rfl, hx'⟩ := fin _ hx
  obtain ⟨b, y, rfl, hy'⟩ := fin _ hy
  obtain ⟨c, z, rfl, hz'⟩ := fin _ hz
  have e : quatText ⟨.fin d w, .fin a x, .fin b y, .fin c z⟩ = [] ++ (realText (.fin d w) ++
      ([32] ++ (realText (.fin a x) ++ ([32] ++ (realText (.fin b y) ++ ([32] ++ (realText (.fin c z) ++ []))))))) := by
    simp [quatText]
  rw [e]
  exact ⟨_, _, _, _, _, _, _, _, readReal_text hf old hw' (by simp) (space_ends _), readReal_text hf old hx' one_space (space_ends _),
    readReal_text hf old hy' one_space (space_ends _), readReal_text hf old hz' one_space nil_ends, rfl, comesBack_fin hf hw',
    comesBack_fin hf hx', comesBack_fin hf hy', comesBack_fin hf hz'⟩

example : quatText ⟨.fin false 1, .fin false 0, .fin true (1 / 2), .fin true 0⟩ = b!"1 0 -0.5 -0" := by decide +kernel

/-- Angles are written and read as their values: the unit is not in the text. -/
theorem C107_angle (f : Fmt) (hf : f = .double ∨ f = .single) (x : Flt) (q : ℚ) (h : Stands f x q) :
    angleTo x = realText x ∧ ComesBack f x (angleFrom f (angleTo x)) := by
  refine ⟨rfl, ?_⟩
  obtain ⟨h1, h2⟩ := h
  cases x with
  | inf s => cases s <;> cases h2
  | nan s => cases h2
  | fin s m =>
    have := readReal_text hf (.fin false 0) (ws := []) (rest := []) h1 (by simp) nil_ends
    rw [List.append_nil, List.nil_append] at this
    unfold angleFrom angleTo
    rw [this]
    exact comesBack_fin hf h1

example : angleFrom .single b!"180" = .fin false 180 := by decide +kernel

/-! ### With a `char_stream` -/

theorem processEnd_next (s : CharStream) {a sep rest : Str} (ha : a ≠ []) (hsep : ∀ c ∈ sep, c ∈ s.delims)
    (hrest : ∀ c ∈ rest.head?, c ≠ 0 ∧ c ∉ s.delims) (hin : s.rest = a ++ (sep ++ rest)) :
    s.processEnd (s.rest.length - (sep ++ rest).length) = { s with rest := rest, eof := s.eof || rest.isEmpty } := by
  have hlen : s.rest.length - (sep ++ rest).length = a.length := by rw [hin, List.length_append]; omega
  have hpos : a.length ≠ 0 := by simpa using ha
  rw [hlen]
  unfold CharStream.processEnd
  rw [if_neg hpos, hin, List.drop_left]
  unfold CharStream.skipDelims
  simp only
  rw [dropWhile_append_stop]
  · unfold CharStream.testEof
    cases rest <;> simp
  · intro d hd; exact CharStream.strchr_iff.2 (.inr (hsep d hd))
  · intro d hd
    have := hrest d hd
    rw [← Bool.not_eq_true, CharStream.strchr_iff]
    rintro (h | h)
    · exact this.1 h
    · exact this.2 h

theorem char_stream_text {f : Fmt} (hf : f = .double ∨ f = .single) (s : CharStream) {x : Flt} (hx : IsFloat f x) {sep rest : Str}
    (hsep : ∀ c ∈ sep, c ∈ s.delims) (hrest : ∀ c ∈ rest.head?, c ≠ 0 ∧ c ∉ s.delims) (hsp : sep ++ rest = [] ∨ sep.head? = some c!" ")
    (hin : s.rest = realText x ++ (sep ++ rest)) :
    ∃ y, ComesBack f x y ∧ s.readReal f = (y, { s with rest := rest, eof := s.eof || rest.isEmpty }) := by
  have hends : Ends (sep ++ rest) := by
    rcases hsp with h | h
    · rw [h]; exact nil_ends
    · cases sep with
      | nil => cases h
      | cons c sep => cases h; exact space_ends _
  have hhead : (sep ++ rest) = [] ∨ ∃ r, sep ++ rest = 32 :: r := by
    rcases hsp with h | h
    · exact .inl h
    · cases sep with
      | nil => cases h
      | cons c sep => cases h; exact .inr ⟨_, rfl⟩
  have hne : realText x ≠ [] := by
    cases x with
    | fin neg m =>
      obtain ⟨⟨c, cs, hw, -⟩, -⟩ := decimal_chars (magText_decimal hx.1)
      simp [realText, hw]
    | inf neg => simp [realText]
    | nan neg => simp [realText]
  have hend := processEnd_next s hne hsep hrest hin
  have key : ∀ y b, ComesBack f x y → strtod f s.rest = some (y, b, sep ++ rest) →
      ∃ y, ComesBack f x y ∧ s.readReal f = (y, { s with rest := rest, eof := s.eof || rest.isEmpty }) := by
    intro y b hy hst
    refine ⟨y, hy, ?_⟩
    unfold CharStream.readReal
    rw [hst]
    simp only [hend]
  cases x with
  | fin neg m =>
    have h1 := six_le_max hf hx.1 hx.2.1
    have h2 := strtod_decimal f (ws := []) (sign := if neg then [45] else []) (by simp) (by cases neg <;> simp) (magText_decimal hx.1) hends
    have e : s.rest = [] ++ (if neg then [45] else []) ++ magText m ++ (sep ++ rest) := by rw [hin]; simp [realText]
    rw [← e] at h2
    refine key _ (f.convert neg (six m)).2 (comesBack_fin hf hx) ?_
    rw [h2]
    have hn : ((if neg then [45] else [] : Str) == [45]) = neg := by cases neg <;> rfl
    rw [hn]
    unfold Fmt.convert
    rw [if_neg (not_lt.2 h1)]
  | inf neg =>
    have h2 := strtod_infinity f (ws := []) (sign := if neg then [45] else []) (w := b!"inf") (rest := sep ++ rest) (by simp)
      (by cases neg <;> simp) (.inr ⟨by rw [sameWord_iff (by decide)]; decide, by
        rcases hhead with h | ⟨r, h⟩ <;> rw [h]
        · rfl
        · exact hasWord_head rfl (by decide)⟩)
    have e : s.rest = [] ++ (if neg then [45] else []) ++ (b!"inf" ++ (sep ++ rest)) := by rw [hin]; simp [realText]
    rw [← e] at h2
    have hn : ((if neg then [45] else [] : Str) == [45]) = neg := by cases neg <;> rfl
    rw [hn] at h2
    exact key _ _ rfl h2
  | nan neg =>
    have h2 := strtod_nan f (ws := []) (sign := if neg then [45] else []) (w := b!"nan") (rest := sep ++ rest) (by simp)
      (by cases neg <;> simp) (by rw [sameWord_iff (by decide)]; decide)
    have e : s.rest = [] ++ (if neg then [45] else []) ++ (b!"nan" ++ (sep ++ rest)) := by rw [hin]; simp [realText]
    rw [← e] at h2
    have hn : ((if neg then [45] else [] : Str) == [45]) = neg := by cases neg <;> rfl
    rw [hn, skipNanText_none (by rcases hhead with h | ⟨r, h⟩ <;> rw [h] <;> simp)] at h2
    exact key _ _ rfl h2

/-- Text of a value begins with a character that is not a delimiter. -/
theorem realText_head {f : Fmt} {x : Flt} (hx : IsFloat f x) (r : Str) :
    ∀ c ∈ (realText x ++ r).head?, c ≠ 0 ∧ c ∉ defaultDelims := by
  have hsign : ∀ (neg : Bool) (c : Byte) (w : Str), (c ≠ 0 ∧ c ∉ defaultDelims) →
      ∀ d ∈ ((if neg then [45] else []) ++ c :: w ++ r : Str).head?, d ≠ 0 ∧ d ∉ defaultDelims := by
    intro neg c w h d hd
    cases neg
    · cases hd; exact h
    · cases hd; decide
  cases x with
  | fin neg m =>
    obtain ⟨⟨c, cs, hw, hc⟩, -⟩ := decimal_chars (magText_decimal hx.1)
    have hk : ∀ c : Byte, (48 ≤ c.toNat ∧ c.toNat ≤ 57) ∨ c = 46 → c ≠ 0 ∧ c ∉ defaultDelims := byte_all (by decide +kernel)
    have := hsign neg c cs (hk c hc)
    simpa [realText, hw] using this
  | inf neg => exact hsign neg _ _ (by decide)
  | nan neg => exact hsign neg _ _ (by decide)

theorem realText_ne_zero {f : Fmt} {x : Flt} (hx : IsFloat f x) : ∀ c ∈ realText x, c ≠ 0 := by
  have hsign : ∀ (neg : Bool) (w : Str), (∀ c ∈ w, c ≠ 0) → ∀ c ∈ ((if neg then [45] else []) ++ w : Str), c ≠ 0 := by
    intro neg w h c hc
    rcases List.mem_append.1 hc with hc | hc
    · cases neg
      · cases hc
      · rw [List.mem_singleton.1 hc]; decide
    · exact h c hc
  cases x with
  | fin neg m =>
    have hch := (decimal_chars (magText_decimal hx.1)).2
    have hk : ∀ c : Byte, (48 ≤ c.toNat ∧ c.toNat ≤ 57) ∨ c ∈ b!".eE+-" → c ≠ 0 := byte_all (by decide +kernel)
    exact hsign neg _ fun c hc => hk c (hch c hc)
  | inf neg => exact hsign neg _ (by decide)
  | nan neg => exact hsign neg _ (by decide)

/-- A `prop_node` whose value is the text of a vector is converted to that vector, with each number rounded to six digits; infinities and
values that are not numbers come back too. -/
theorem C107_node (f : Fmt) (hf : f = .double ∨ f = .single) (from' : PN → Res Flt) (zero : Flt) (acc : Bool) (v : Vec3 Flt)
    (hx : IsFloat f v.x) (hy : IsFloat f v.y) (hz : IsFloat f v.z) :
    ∃ v', PN.vec3From from' zero (fun t _ => .ok (vec3OfText f t)) (.mk acc (vec3Text v) []) = .ok v' ∧
      ComesBack f v.x v'.x ∧ ComesBack f v.y v'.y ∧ ComesBack f v.z v'.z := by
  have hc : cstr (vec3Text v) = vec3Text v := by
    have hall : ∀ c ∈ vec3Text v, c ≠ 0 := by
      intro c hc
      simp only [vec3Text, List.mem_append, List.mem_singleton] at hc
      rcases hc with (((hc | rfl) | hc) | rfl) | hc
      · exact realText_ne_zero hx c hc
      · decide
      · exact realText_ne_zero hy c hc
      · decide
      · exact realText_ne_zero hz c hc
    have := cstr_append (b := []) hall
    simpa [cstr] using this
  have e : vec3Text v = realText v.x ++ (b!" " ++ (realText v.y ++ (b!" " ++ realText v.z))) := by simp [vec3Text]
  have hnil : ∀ c ∈ ([] : Str).head?, c ≠ 0 ∧ c ∉ defaultDelims := by intro c hc; cases hc
  have hz' : ∀ c ∈ (realText v.z).head?, c ≠ 0 ∧ c ∉ defaultDelims := by
    have := realText_head hz []; rwa [List.append_nil] at this
  have hsp : ∀ c ∈ (b!" " : Str), c ∈ defaultDelims := by decide
  have hne : vec3Text v ≠ [] := by rw [e]; simp
  have h0 : CharStream.ofCStr (cstr (vec3Text v)) = { rest := vec3Text v, delims := defaultDelims } := by
    unfold CharStream.ofCStr CharStream.init
    rw [hc, hc]
    unfold CharStream.skipDelims
    simp only
    have : (vec3Text v).dropWhile (strchr defaultDelims) = vec3Text v := by
      have h1 := dropWhile_append_stop (p := strchr defaultDelims) (a := []) (b := vec3Text v) (by simp) (by
        intro d hd
        rw [e] at hd
        have := realText_head hx _ d hd
        rw [← Bool.not_eq_true, CharStream.strchr_iff]
        rintro (h | h)
        · exact this.1 h
        · exact this.2 h)
      simpa using h1
    rw [this]
    unfold CharStream.testEof
    simp [hne]
  obtain ⟨x', bx, rx⟩ := char_stream_text hf { rest := vec3Text v, delims := defaultDelims } hx (sep := b!" ")
    (rest := realText v.y ++ (b!" " ++ realText v.z)) hsp (realText_head hy _) (.inr rfl) e
  obtain ⟨y', bY, ry⟩ := char_stream_text hf ⟨realText v.y ++ (b!" " ++ realText v.z), defaultDelims, false,
      false || (realText v.y ++ (b!" " ++ realText v.z)).isEmpty⟩ hy (sep := b!" ")
    (rest := realText v.z) hsp hz' (.inr rfl) rfl
  obtain ⟨z', bz, rz⟩ := char_stream_text hf ⟨realText v.z, defaultDelims, false,
      (false || (realText v.y ++ (b!" " ++ realText v.z)).isEmpty) || (realText v.z).isEmpty⟩ hz (sep := [])
    (rest := []) (by simp) hnil (.inl rfl) (by simp)
  have hval : (PN.mk acc (vec3Text v) []).hasValue = true := by
    simp [PN.hasValue, PN.value, hne]
  refine ⟨⟨x', y', z'⟩, ?_, bx, bY, bz⟩
  have ht : vec3OfText f (vec3Text v) = ⟨x', y', z'⟩ := by
    unfold vec3OfText
    rw [h0]
    simp only [rx, ry, rz]
  unfold PN.vec3From
  simp only [PN.getDef, PN.findIdx, hval, if_true, PN.value, ht]
  simp [PN.findIdx, hval, ht, PN.value]

example : PN.vec3From (PN.castStr (realFrom .double)) (.fin false 0) (fun t _ => .ok (vec3OfText .double t))
    (.mk false (vec3Text ⟨.inf true, .fin false (3 / 2), .nan false⟩) []) = .ok ⟨.inf true, .fin false (3 / 2), .nan false⟩ := by
  decide +kernel

/-- Bounds of real numbers that are written to a stream are read back by a `char_stream`, rounded to six digits, and the text after them
and the delimiters is next. -/
theorem C107_bounds (f : Fmt) (hf : f = .double ∨ f = .single) (b : Bounds Flt) (hlo : IsFloat f b.lower) (hup : IsFloat f b.upper)
    (s : CharStream) (hd : s.delims = defaultDelims) (sep rest : Str) (hsep : ∀ c ∈ sep, c ∈ s.delims)
    (hrest : ∀ c ∈ rest.head?, c ≠ 0 ∧ c ∉ s.delims) (hsp : sep ++ rest = [] ∨ sep.head? = some c!" ")
    (hin : s.rest = b.text realText ++ (sep ++ rest)) :
    ∃ b', Bounds.read (CharStream.readReal f) s = (b', { s with rest := rest, eof := s.eof || rest.isEmpty }) ∧
      ComesBack f b.lower b'.lower ∧ ComesBack f b.upper b'.upper := by
  obtain ⟨x, bx, rx⟩ := char_stream_text hf s hlo (sep := b!" ") (rest := realText b.upper ++ (sep ++ rest)) (by rw [hd]; decide)
    (by rw [hd]; exact realText_head hup _) (.inr rfl) (by rw [hin]; simp [Bounds.text])
  have hne : (realText b.upper ++ (sep ++ rest)).isEmpty = false := by
    have : realText b.upper ≠ [] := by
      cases hu : b.upper with
      | fin neg m =>
        rw [hu] at hup
        obtain ⟨⟨c, cs, hw, -⟩, -⟩ := decimal_chars (magText_decimal hup.1)
        simp [realText, hw]
      | inf neg => simp [realText]
      | nan neg => simp [realText]
    cases h : realText b.upper with
    | nil => exact absurd h this
    | cons _ _ => rfl
  obtain ⟨y, bY, ry⟩ := char_stream_text hf { s with rest := realText b.upper ++ (sep ++ rest), eof := s.eof || (realText b.upper ++ (sep ++ rest)).isEmpty }
    hup (sep := sep) (rest := rest) hsep hrest hsp rfl
  refine ⟨⟨x, y⟩, ?_, bx, bY⟩
  unfold Bounds.read
  simp only [rx, ry]
  simp [hne]

example : Bounds.read (CharStream.readReal .double) (CharStream.ofCStr (Bounds.text realText ⟨.fin true (1 / 2), .inf false⟩ ++ b!" x")) =
    (⟨.fin true (1 / 2), .inf false⟩, { CharStream.ofCStr (Bounds.text realText ⟨.fin true (1 / 2), .inf false⟩ ++ b!" x") with rest := b!"x" }) := by
  decide +kernel

end Flut
