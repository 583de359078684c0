import Verif.Proofs.Quote
import Verif.Proofs.Trim

/-! # Properties C01, C03–C08: string helpers

Theorems about `flut/string_tools.hpp|cpp`. The specifications `IsTrim`, `Pieces`, `Ascii`, `OccursAt`
are in `Verif/Spec/Strings.lean`. -/

namespace Flut

open Spec

/-! ## C01 quoting -/

/-- C01. Quoting and unquoting gives the string back exactly for 7-bit NUL-free strings. -/
theorem C01_quote_roundtrip (s : Str) : tryUnquoted (tryQuoted s) = .ok s ↔ Ascii s := by
  unfold tryQuoted
  split
  next hn =>
    have hq : quoted s = 34 :: (s.flatMap quoteChar ++ [34]) := by simp [quoted]
    have hu : tryUnquoted (quoted s) =
        unquoteLoop ((s.flatMap quoteChar ++ [34]).length + 1) (s.flatMap quoteChar ++ [34]) := by
      rw [hq]
      simp only [tryUnquoted]
      rw [if_neg]
      simp [List.getLast?_cons]
    rw [hu]
    constructor
    · intro h
      -- a bad character reads back as `?`
      have key : ∀ (s : Str) n, unquoteLoop n (s.flatMap quoteChar ++ [34]) = .ok s → Ascii s := by
        intro s
        induction s with
        | nil => intro _ _; simp [Ascii]
        | cons c cs ih =>
          intro n h
          cases n with
          | zero => simp [unquoteLoop] at h
          | succ n =>
            rw [List.flatMap_cons, List.append_assoc] at h
            by_cases hc : 1 ≤ c.toNat ∧ c.toNat ≤ 127
            · rw [unquote_good _ _ hc] at h
              obtain ⟨a, ha, hb⟩ := Res.bind_eq_ok.1 h
              simp at hb
              subst hb
              have := ih n ha
              intro d hd
              rcases List.mem_cons.1 hd with rfl | hd
              · exact hc
              · exact this d hd
            · obtain ⟨tl, -, -, hbad⟩ := unquote_bad hc
              rw [hbad] at h
              obtain ⟨a, ha, hb⟩ := Res.bind_eq_ok.1 h
              simp at hb
              obtain ⟨rfl, -⟩ := hb
              simp at hc
      exact key s _ h
    · intro h
      have h1 := unquoteLoop_ascii h [34] 1
      have h2 : unquoteLoop (1 + s.length) (s.flatMap quoteChar ++ [34]) = .ok s := by
        rw [h1]; simp [unquoteLoop]
      have hl := flatMap_quoteChar_length s
      have h3 := unquoteLoop_mono h2 ((s.flatMap quoteChar).length - s.length + 1)
      rw [← h3]; congr 1; rw [List.length_append, List.length_singleton]; omega
  next hn =>
    have hn' : ∀ c ∈ s, ¬ (schar c < 33) ∧ c ≠ 34 ∧ c ≠ 92 := by
      simpa [needsQuotes, and_assoc] using hn
    constructor
    · intro _ c hc
      have h1 := (hn' c hc).1
      have h2 := c.toNat_lt
      unfold schar at h1
      split at h1 <;> omega
    · intro _
      cases s with
      | nil => simp [tryUnquoted]
      | cons c cs =>
        have := (hn' c (by simp)).2.1
        simp [tryUnquoted, this]

theorem encodeChar_eq (c : Byte) : encodeChar c = quoteChar c := by
  unfold quoteChar
  by_cases h : c = 34 ∨ c = 92 ∨ schar c < 32
  · rw [if_pos h]
  · rw [if_neg h]
    simp only [not_or] at h
    simp [encodeChar, h.1, h.2.1, h.2.2]

/-- C01. Decoding the encoding of a single character gives the character back exactly for 7-bit characters other than NUL, whatever follows;
all others are decoded as `?`. The reported length is that of the encoding, or zero if the character stands for itself. -/
theorem C01_char (c : Byte) (rest : Str) : decodeChar (encodeChar c ++ rest) =
    if 1 ≤ c.toNat ∧ c.toNat ≤ 127 then .ok (c, if encodeChar c = [c] then 0 else (encodeChar c).length) else .ok (63, 4) := by
  rw [encodeChar_eq]
  cases quoteCase c with
  | plain hq h1 h2 h3 h4 =>
    rw [if_pos ⟨by omega, by omega⟩, hq, if_pos rfl]
    simp [decodeChar, h2]
  | esc d hq h1 h2 h =>
    rw [if_pos ⟨h1, by omega⟩, hq, if_neg (by simp)]
    exact decodeChar_esc rest h
  | oct d1 d2 d3 hq h1 h2 h3 hv hlt =>
    have := decodeChar_oct rest h1 h2 h3
    rw [hq, if_neg (c := [92, d1, d2, d3] = [c]) (by simp)]
    simp only [List.cons_append, List.nil_append]
    rw [this]
    simp only [hv]
    by_cases h0 : 0 < c.toNat
    · rw [if_pos ⟨h0, hlt⟩, if_pos ⟨h0, by omega⟩]; simp
    · rw [if_neg (fun h => h0 h.1), if_neg (fun h => h0 h.1)]
  | neg tl hq h1 _ =>
    rw [if_neg (by omega), hq]
    exact decodeChar_oct (tl ++ rest) (by decide) (by decide) (by decide)

/-- C01. So the length that `decode_char` reports is not the number of characters read: for a character that stands for itself it is zero. -/
theorem C01_char_length_refuted : decodeChar b!"abc" = .ok (97, 0) ∧ decodeChar (92 :: b!"tbc") = .ok (9, 2) := by decide +kernel

/-- C01. Whatever the bytes, unquoting a quoted string ends normally: no undefined behaviour, no
exception, no endless loop. -/
theorem C01_quote_roundtrip_total (s : Str) : ∃ r, tryUnquoted (tryQuoted s) = .ok r := by
  unfold tryQuoted
  split
  next hn =>
    have hq : quoted s = 34 :: (s.flatMap quoteChar ++ [34]) := by simp [quoted]
    have hu : tryUnquoted (quoted s) =
        unquoteLoop ((s.flatMap quoteChar ++ [34]).length + 1) (s.flatMap quoteChar ++ [34]) := by
      rw [hq]
      simp only [tryUnquoted]
      rw [if_neg]
      simp [List.getLast?_cons]
    rw [hu]
    exact unquoteLoop_enough s
  next hn =>
    have hn' : ∀ c ∈ s, c ≠ 34 := by
      have : ∀ c ∈ s, ¬ (schar c < 33) ∧ c ≠ 34 ∧ c ≠ 92 := by
        simpa [needsQuotes, and_assoc] using hn
      exact fun c hc => (this c hc).2.1
    cases s with
    | nil => exact ⟨[], by simp [tryUnquoted]⟩
    | cons c cs => exact ⟨c :: cs, by simp [tryUnquoted, hn' c (by simp)]⟩

/-- C01, finding: on text that `try_quoted` did not produce, `try_unquoted` can run past the end of the
string. A lone quote does; so does any text whose closing quote is escaped. -/
theorem C01_unquote_past_end :
    tryUnquoted b!"\"" = .ub ∧ tryUnquoted b!"\"a\\\"" = .ub := by
  constructor <;> rfl

/-- C01, finding: a non-ASCII (UTF-8) string does not survive quoting. -/
theorem C01_utf8_lost : tryUnquoted (tryQuoted [195, 169]) ≠ .ok [195, 169] := by
  intro h
  have := (C01_quote_roundtrip _).1 h 195 (by simp)
  simp at this

example : Ascii b!"say \"hi\"\n\ttwice \\ done" := by decide

/-- C01: printable text without quotes and backslashes is not changed but only put between quotes, and that only if it contains
a blank. -/
theorem C01_plain_text (s : Str) (h : ∀ c ∈ s, 32 ≤ c.toNat ∧ c.toNat < 128 ∧ c ≠ c!"\"" ∧ c ≠ c!"\\") :
    tryQuoted s = if c!" " ∈ s then c!"\"" :: (s ++ [c!"\""]) else s := by
  have hq : ∀ c ∈ s, quoteChar c = [c] := by
    intro c hc
    obtain ⟨h1, h2, h3, h4⟩ := h c hc
    have h5 : ¬ schar c < 32 := by unfold schar; split <;> omega
    simp [quoteChar, h3, h4, h5]
  have hf : s.flatMap quoteChar = s := by
    clear h
    induction s with
    | nil => rfl
    | cons c s ih =>
      rw [List.flatMap_cons, hq c (by simp), ih (fun d hd => hq d (by simp [hd]))]
      rfl
  have hn : needsQuotes s = true ↔ c!" " ∈ s := by
    simp only [needsQuotes, List.any_eq_true, Bool.or_eq_true, decide_eq_true_eq, beq_iff_eq]
    constructor
    · rintro ⟨c, hc, h1⟩
      obtain ⟨g1, g2, g3, g4⟩ := h c hc
      rcases h1 with (h1 | h1) | h1
      · have : c.toNat = 32 := by unfold schar at h1; split at h1 <;> omega
        have : c = 32 := UInt8.toNat_inj.1 this
        rw [← this]; exact hc
      · exact absurd h1 g3
      · exact absurd h1 g4
    · intro hm
      exact ⟨_, hm, .inl (.inl (by decide))⟩
  unfold tryQuoted
  by_cases hs : c!" " ∈ s
  · rw [if_pos (hn.2 hs), if_pos hs, quoted, hf]; simp
  · rw [if_neg (fun e => hs (hn.1 e)), if_neg hs]

example : tryQuoted b!"two words" = b!"\"two words\"" ∧ tryQuoted b!"{x}=1;" = b!"{x}=1;" := by decide
example : tryUnquoted (tryQuoted b!"say \"hi\"\n") = .ok b!"say \"hi\"\n" := by decide

/-! ## C03 trimming -/

/-- C03. `trim_str` never throws and returns the trimmed string. -/
theorem C03_trim_str (s chars r : Str) :
    trimStr s chars = .ok r ↔ IsTrim (· ∈ cstr chars) s r := by
  obtain ⟨r', h1, h2⟩ := trimStr_isTrim s chars
  rw [h1]
  constructor
  · intro h; simp at h; exact h ▸ h2
  · intro h; rw [isTrim_unique h h2]

/-- C03. Totality of `trim_str`. -/
theorem C03_trim_str_total (s chars : Str) : ∃ r, trimStr s chars = .ok r :=
  (trimStr_isTrim s chars).imp fun _ h => h.1

/-- C03. `trim_right_str` never throws and removes exactly the trailing trim characters. -/
theorem C03_trim_right_str (s chars r : Str) :
    trimRightStr s chars = .ok r ↔ IsTrimRight (· ∈ cstr chars) s r := by
  obtain ⟨r', h1, h2⟩ := trimRightStr_isTrim s chars
  rw [h1]
  constructor
  · intro h; simp at h; exact h ▸ h2
  · intro h; rw [isTrimRight_unique h h2]

/-- C03. Totality of `trim_right_str`. -/
theorem C03_trim_right_str_total (s chars : Str) : ∃ r, trimRightStr s chars = .ok r :=
  (trimRightStr_isTrim s chars).imp fun _ h => h.1

example : trimStr b!" \t a b \n" = .ok b!"a b" := by decide
example : trimStr b!" \t\n" = .ok [] := by decide
example : trimRightStr b!" a b \n" = .ok b!" a b" := by decide

/-! ## C04 splitting -/

/-- C04. `split_str` terminates and returns exactly the maximal separator-free pieces in order. -/
theorem C04_split_str (s sep : Str) (ps : List Str) :
    splitStr s sep = .ok ps ↔ Pieces (· ∈ cstr sep) s ps := by
  obtain ⟨ps', h1, h2⟩ := splitStr_pieces s sep
  rw [h1]
  constructor
  · intro h; simp at h; exact h ▸ h2
  · intro h; rw [pieces_unique h h2]

/-- C04. Totality (termination without exception). -/
theorem C04_split_str_total (s sep : Str) : ∃ ps, splitStr s sep = .ok ps :=
  (splitStr_pieces s sep).imp fun _ h => h.1

/-- C04. No piece is empty and no piece contains a separator. -/
theorem C04_split_str_pieces (s sep : Str) (ps : List Str) (h : splitStr s sep = .ok ps) :
    ∀ r ∈ ps, r ≠ [] ∧ ∀ c ∈ r, c ∉ cstr sep := by
  have := (C04_split_str s sep ps).1 h
  clear h
  induction this with
  | done => simp
  | piece _ hr hn _ _ ih =>
    intro q hq
    rcases List.mem_cons.1 hq with rfl | hq
    · exact ⟨hr, hn⟩
    · exact ih q hq

example : splitStr b!";;a;bc;;d;" b!";" = .ok [b!"a", b!"bc", b!"d"] := by decide

/-! ## C05 cutting at separators -/

/-- C05. `left_of_str` is the part before the first separator. -/
theorem C05_left_of_str (s sep : Str) : ∃ r, leftOfStr s sep = .ok r ∧ (∀ c ∈ r, c ∉ cstr sep) ∧
    (r = s ∨ ∃ c rest, c ∈ cstr sep ∧ s = r ++ c :: rest) := by
  cases h : findFirst (inSet sep) s with
  | none =>
    exact ⟨s, by simp [leftOfStr, h, substr_zero_none],
      fun c hc => inSet_false.1 (findFirst_eq_none.1 h c hc), Or.inl rfl⟩
  | some i =>
    obtain ⟨pre, c, post, rfl, rfl, hc, hp⟩ := findFirst_eq_some.1 h
    exact ⟨pre, by simp [leftOfStr, h, substr_zero], fun d hd => inSet_false.1 (hp d hd),
      Or.inr ⟨c, post, inSet_iff.1 hc, rfl⟩⟩

/-- C05. `right_of_str` is the part after the last separator. -/
theorem C05_right_of_str (s sep : Str) : ∃ r, rightOfStr s sep = .ok r ∧ (∀ c ∈ r, c ∉ cstr sep) ∧
    (r = s ∨ ∃ c pre, c ∈ cstr sep ∧ s = pre ++ c :: r) := by
  cases h : findLast (inSet sep) s with
  | none =>
    exact ⟨s, by simp [rightOfStr, h],
      fun c hc => inSet_false.1 (findLast_eq_none.1 h c hc), Or.inl rfl⟩
  | some i =>
    obtain ⟨pre, c, post, rfl, rfl, hc, hp⟩ := findLast_eq_some.1 h
    refine ⟨post, ?_, fun d hd => inSet_false.1 (hp d hd), Or.inr ⟨c, pre, inSet_iff.1 hc, rfl⟩⟩
    simp only [rightOfStr, h]
    have := substr_append (pre := pre ++ [c]) (post := post)
    simpa using this

/-- C05. Without a separator `make_key_value_str` returns the untrimmed text and an empty value. -/
theorem C05_make_key_value_none (s sep : Str) (h : ∀ c ∈ s, c ∉ cstr sep) :
    makeKeyValueStr s sep = .ok (s, []) := by
  have : findFirst (inSet sep) s = none := findFirst_eq_none.2 fun c hc => inSet_false.2 (h c hc)
  simp [makeKeyValueStr, this]

/-- C05. Otherwise it cuts at the first separator and trims both parts. -/
theorem C05_make_key_value (a b : Str) (c : Byte) (sep : Str) (hc : c ∈ cstr sep)
    (ha : ∀ d ∈ a, d ∉ cstr sep) : ∃ k v, makeKeyValueStr (a ++ c :: b) sep = .ok (k, v) ∧
      IsTrim (· ∈ [32, 9, 13, 10, 12, 11]) a k ∧ IsTrim (· ∈ [32, 9, 13, 10, 12, 11]) b v := by
  have h : findFirst (inSet sep) (a ++ c :: b) = some a.length :=
    findFirst_append_cons (inSet_iff.2 hc) fun d hd => inSet_false.2 (ha d hd)
  obtain ⟨k, hk, hk2⟩ := trimStr_isTrim a defaultTrim
  obtain ⟨v, hv, hv2⟩ := trimStr_isTrim b defaultTrim
  refine ⟨k, v, ?_, hk2, hv2⟩
  have h3 : midStr (a ++ c :: b) (a.length + 1) = .ok b := by
    have := substr_append (pre := a ++ [c]) (post := b)
    simpa [midStr] using this
  simp [makeKeyValueStr, h, substr_zero, hk, h3, hv]

/-- C05. Without another separator being given it cuts at the first equals sign. -/
theorem C05_make_key_value_default (a b : Str) (ha : 61 ∉ a) : ∃ k v, makeKeyValueStr (a ++ 61 :: b) = .ok (k, v) ∧
    IsTrim (· ∈ [32, 9, 13, 10, 12, 11]) a k ∧ IsTrim (· ∈ [32, 9, 13, 10, 12, 11]) b v :=
  C05_make_key_value a b 61 _ (by decide) fun d hd h => by
    have : d = 61 := by
      have h' : d ∈ [(61 : Byte)] := h
      simpa using h'
    exact ha (this ▸ hd)

example : makeKeyValueStr b!" key =  a = b " = .ok (b!"key", b!"a = b") := by decide

/-! ## C06 prefixes and suffixes -/

theorem findSub_eq_some {t s : Str} {i : Nat} :
    findSub t s = some i ↔ OccursAt t s i ∧ ∀ j, OccursAt t s j → i ≤ j := by
  induction s generalizing i with
  | nil =>
    cases t with
    | nil =>
      simp only [findSub, List.isEmpty_nil, if_true, Option.some.injEq]
      constructor
      · rintro rfl; exact ⟨⟨[], [], by simp⟩, fun _ _ => Nat.zero_le _⟩
      · rintro ⟨⟨a, b, h, h2⟩, -⟩
        have : a = [] := by simpa using (List.append_eq_nil_iff.1 h.symm).1
        subst this; simpa using h2
    | cons x xs =>
      simp only [findSub, List.isEmpty_cons, Bool.false_eq_true, if_false, reduceCtorEq, false_iff]
      rintro ⟨⟨a, b, h, -⟩, -⟩
      simp at h
  | cons c cs ih =>
    simp only [findSub]
    by_cases hp : t.isPrefixOf (c :: cs) = true
    · simp only [hp, if_true, Option.some.injEq]
      obtain ⟨b, hb⟩ := List.isPrefixOf_iff_prefix.1 hp
      have h0 : OccursAt t (c :: cs) 0 := ⟨[], b, by simp [hb], rfl⟩
      constructor
      · rintro rfl; exact ⟨h0, fun _ _ => Nat.zero_le _⟩
      · rintro ⟨-, h⟩; exact (Nat.le_zero.1 (h 0 h0)).symm
    · simp only [hp, Bool.false_eq_true, if_false]
      have hshift : ∀ j, OccursAt t (c :: cs) j ↔ ∃ k, j = k + 1 ∧ OccursAt t cs k := by
        intro j
        constructor
        · rintro ⟨a, b, h, rfl⟩
          cases a with
          | nil => exact absurd (List.isPrefixOf_iff_prefix.2 ⟨b, by simpa using h.symm⟩) hp
          | cons x xs =>
            simp at h
            exact ⟨xs.length, by simp, xs, b, by simp [h.2], rfl⟩
        · rintro ⟨k, rfl, a, b, h, rfl⟩
          exact ⟨c :: a, b, by simp [h], by simp⟩
      constructor
      · intro h
        simp at h
        obtain ⟨k, hk, rfl⟩ := h
        obtain ⟨h1, h2⟩ := ih.1 hk
        refine ⟨(hshift _).2 ⟨k, rfl, h1⟩, fun j hj => ?_⟩
        obtain ⟨m, rfl, hm⟩ := (hshift _).1 hj
        have := h2 m hm; omega
      · rintro ⟨h1, h2⟩
        obtain ⟨k, rfl, hk⟩ := (hshift _).1 h1
        simp only [Option.map_eq_some_iff]
        refine ⟨k, ih.2 ⟨hk, fun j hj => ?_⟩, rfl⟩
        have := h2 (j + 1) ((hshift _).2 ⟨j, rfl, hj⟩); omega

/-- C06. `str_begins_with` decides the prefix relation. -/
theorem C06_begins_with (s t : Str) : strBeginsWith s t = true ↔ t <+: s := by
  simp only [strBeginsWith, beq_iff_eq, findSub_eq_some, Nat.zero_le, implies_true, and_true]
  constructor
  · rintro ⟨a, b, h, h2⟩
    have : a = [] := by simpa using h2
    subst this; exact ⟨b, by simpa using h.symm⟩
  · rintro ⟨b, h⟩; exact ⟨[], b, by simp [h], rfl⟩

/-- C06, partial. The full claim is `strEndsWith s t = true ↔ t <:+ s`, which is false of the code
(`C06_ends_with_refuted`). What the code decides is: `t` is a suffix and occurs nowhere earlier. -/
theorem C06_ends_with_partial (s t : Str) :
    strEndsWith s t = true ↔ t <:+ s ∧ ∀ i, OccursAt t s i → i + t.length = s.length := by
  simp only [strEndsWith, Bool.and_eq_true, decide_eq_true_eq, beq_iff_eq, findSub_eq_some, ge_iff_le]
  constructor
  · rintro ⟨hl, ⟨a, b, h, h2⟩, hmin⟩
    have hlen := congrArg List.length h
    simp at hlen
    have hb : b = [] := List.eq_nil_of_length_eq_zero (by omega)
    subst hb
    refine ⟨⟨a, by simpa using h.symm⟩, fun i hi => ?_⟩
    have h3 := hmin i hi
    obtain ⟨a', b', h', rfl⟩ := hi
    have := congrArg List.length h'
    simp at this; omega
  · rintro ⟨⟨a, h⟩, hmin⟩
    have hlen := congrArg List.length h
    simp at hlen
    refine ⟨by omega, ⟨a, [], by simp [h], by omega⟩, fun j hj => ?_⟩
    have := hmin j hj; omega

/-- C06. The suffix claim fails: "abab" ends with "ab" but the function says no, and no non-empty
string ends with the empty string according to it. -/
theorem C06_ends_with_refuted :
    (b!"ab" <:+ b!"abab" ∧ strEndsWith b!"abab" b!"ab" = false) ∧
    ([] <:+ b!"x" ∧ strEndsWith b!"x" [] = false) := by
  refine ⟨⟨⟨b!"ab", rfl⟩, by decide⟩, ⟨⟨b!"x", rfl⟩, by decide⟩⟩

/-- C06. A positive answer is always right. -/
theorem C06_ends_with_sound (s t : Str) (h : strEndsWith s t = true) : t <:+ s :=
  ((C06_ends_with_partial s t).1 h).1

example : strEndsWith b!"model.zml" b!".zml" = true := by decide
example : strBeginsWith b!"model.zml" b!"mod" = true := by decide

/-! ## C07 left, middle and right -/

/-- C07. `left_str` with a non-negative count. -/
theorem C07_left_str (s : Str) (n : Nat) : leftStr s n = .ok (s.take n) := by
  simp [leftStr, substr_zero]

/-- C07. `left_str` with a negative count drops characters on the right. -/
theorem C07_left_str_neg (s : Str) (n : Nat) (hn : 0 < n) :
    leftStr s (-(n : Int)) = .ok (s.take (s.length - n)) := by
  have h : ¬ (0 : Int) ≤ -(n : Int) := by omega
  simp only [leftStr, h, if_false, substr_zero]
  congr 2; omega

/-- C07. `right_str` with a count up to the length. -/
theorem C07_right_str (a r : Str) : rightStr (a ++ r) r.length = .ok r := by
  simp [rightStr, substr]

/-- C07. `right_str` throws when asked for more characters than there are. -/
theorem C07_right_str_too_long (s : Str) (n : Nat) (h : s.length < n) :
    rightStr s n = .throws .outOfRange := by
  simp [rightStr]; omega

/-- C07. `right_str` with a negative count drops characters on the left, throwing when there are not
enough. -/
theorem C07_right_str_neg (s : Str) (n : Nat) (hn : 0 < n) (h31 : n < 2147483648) :
    rightStr s (-(n : Int)) = if n ≤ s.length then .ok (s.drop n) else .throws .outOfRange := by
  have h : ¬ (0 : Int) ≤ -(n : Int) := by omega
  have h2 : ¬ -(n : Int) = -2147483648 := by omega
  simp only [rightStr, h, h2, if_false, substr]
  simp only [Int.neg_neg, Int.toNat_natCast]
  by_cases hl : n ≤ s.length
  · simp [hl]
  · simp [hl]

/-- C07, finding: the header says a negative count gives the string without its left (for `left_str`) or
right (for `right_str`) characters; the code drops them at the other end. -/
theorem C07_doc_refuted :
    leftStr b!"abc" (-1) = .ok b!"ab" ∧ rightStr b!"abc" (-1) = .ok b!"bc" := by decide

/-- C07. `mid_str` is `substr`: it throws exactly when the position is past the end. -/
theorem C07_mid_str (s : Str) (pos n : Nat) : midStr s pos (some n) =
    if pos ≤ s.length then .ok ((s.drop pos).take n) else .throws .outOfRange := by
  by_cases h : pos ≤ s.length
  · simp [midStr, substr, h]
  · simp [midStr, substr, h]

example : rightStr b!"hello" 3 = .ok b!"llo" := by decide

/-! ## C08 file names -/

/-- C08. Extension and remainder recombine to the file name; the extension has no dot and no
separator; an empty extension leaves the name alone. -/
theorem C08_ext (s : Str) : ∃ e b, getFilenameExt s = .ok e ∧ getFilenameWithoutExt s = .ok b ∧
    (∀ c ∈ e, c ≠ 46 ∧ c ≠ 47 ∧ c ≠ 92) ∧
    (if e = [] then b = s else s = b ++ 46 :: e) := by
  have hno : ∀ {x : Str}, findLast isSep x = none → ∀ c ∈ x, c ≠ 47 ∧ c ≠ 92 := by
    intro x hx c hc
    have := findLast_eq_none.1 hx c hc
    simpa [isSep] using this
  cases h : findLast (· == 46) s with
  | none =>
    have h1 : getFilenameExt s = .ok [] := by simp [getFilenameExt, h]
    exact ⟨[], s, h1, by simp [getFilenameWithoutExt, h1, countSub, substr_zero], by simp, by simp⟩
  | some i =>
    obtain ⟨pre, c, post, rfl, rfl, hc, hp⟩ := findLast_eq_some.1 h
    have hsub : substr (pre ++ c :: post) (pre.length + 1) none = .ok post := by
      have := substr_append (pre := pre ++ [c]) (post := post)
      simpa using this
    have hc' : c = 46 := by simpa using hc
    subst hc'
    have hempty : getFilenameExt (pre ++ 46 :: post) = .ok [] →
        getFilenameWithoutExt (pre ++ 46 :: post) = .ok (pre ++ 46 :: post) := by
      intro h1; simp [getFilenameWithoutExt, h1, countSub, substr_zero, List.take_of_length_le]
    cases h2 : findLast isSep post with
    | some j =>
      have h1 : getFilenameExt (pre ++ 46 :: post) = .ok [] := by simp [getFilenameExt, h, hsub, h2]
      exact ⟨[], _, h1, hempty h1, by simp, by simp⟩
    | none =>
      have h1 : getFilenameExt (pre ++ 46 :: post) = .ok post := by simp [getFilenameExt, h, hsub, h2]
      have hq : ∀ c ∈ post, c ≠ 46 ∧ c ≠ 47 ∧ c ≠ 92 := by
        intro c hc
        have a := hp c hc
        have b := hno h2 c hc
        exact ⟨by simpa using a, b.1, b.2⟩
      by_cases hpe : post = []
      · subst hpe
        exact ⟨[], _, h1, hempty h1, by simp, by simp⟩
      · refine ⟨post, pre, h1, ?_, hq, by simp [hpe]⟩
        have hl : 0 < post.length := List.length_pos_iff.2 hpe
        have hcs : countSub (pre ++ 46 :: post).length (post.length + 1) = some pre.length := by
          simp [countSub]
        simp only [getFilenameWithoutExt, h1, Res.bind_ok, gt_iff_lt, hl, if_true, hcs, substr_zero]
        simp

/-- C08. What follows the last dot is the extension, if there is no separator in it. -/
theorem C08_ext_found (a e : Str) (he : ∀ c ∈ e, c ≠ 46 ∧ c ≠ 47 ∧ c ≠ 92) (hne : e ≠ []) :
    getFilenameExt (a ++ 46 :: e) = .ok e ∧ getFilenameWithoutExt (a ++ 46 :: e) = .ok a := by
  have h1 : getFilenameExt (a ++ 46 :: e) = .ok e := by
    have h : findLast (· == 46) (a ++ 46 :: e) = some a.length :=
      findLast_eq_some.2 ⟨a, 46, e, rfl, rfl, by simp, fun c hc => by simpa using (he c hc).1⟩
    have h2 : findLast isSep e = none := findLast_eq_none.2 fun c hc => by simp [isSep, (he c hc).2]
    have hsub : substr (a ++ 46 :: e) (a.length + 1) none = .ok e := by
      have := substr_append (pre := a ++ [46]) (post := e)
      simpa using this
    simp [getFilenameExt, h, hsub, h2]
  obtain ⟨e', b, h2, h3, -, h4⟩ := C08_ext (a ++ 46 :: e)
  rw [h1] at h2
  obtain rfl : e = e' := by injection h2
  rw [if_neg hne] at h4
  exact ⟨h1, by rw [h3, List.append_cancel_right h4]⟩

example : getFilenameExt b!"dir.x/name.tar.gz" = .ok b!"gz" ∧ getFilenameExt b!"dir.x/name" = .ok [] := by decide

/-- C08. For names with a separator, folder and remaining name recombine, the folder ends in the
separator and the remaining name has none. -/
theorem C08_folder (a b : Str) (c : Byte) (hc : c = 47 ∨ c = 92) (hb : ∀ d ∈ b, d ≠ 47 ∧ d ≠ 92) :
    getFilenameFolder (a ++ c :: b) = .ok (a ++ [c]) ∧
    getFilenameWithoutFolder (a ++ c :: b) = .ok b := by
  have h : findLast isSep (a ++ c :: b) = some a.length :=
    findLast_append_cons (by simpa [isSep] using hc) (fun d hd => by simpa [isSep] using hb d hd)
  constructor
  · simp only [getFilenameFolder, h, substr_zero]
    have e : a ++ c :: b = (a ++ [c]) ++ b := by simp
    rw [e, List.take_append_of_le_length (by simp), List.take_of_length_le (by simp)]
  · simp only [getFilenameWithoutFolder, h]
    have := substr_append (pre := a ++ [c]) (post := b)
    simpa using this

/-- C08. For names without a separator `get_filename_without_folder` is the identity. -/
theorem C08_without_folder_plain (s : Str) (hs : ∀ d ∈ s, d ≠ 47 ∧ d ≠ 92) :
    getFilenameWithoutFolder s = .ok s := by
  have h : findLast isSep s = none :=
    findLast_eq_none.2 (fun d hd => by simpa [isSep] using hs d hd)
  simp [getFilenameWithoutFolder, h]

/-- C08, finding: for a name without a separator the "folder" is the whole name, so folder and
remaining name do not recombine. -/
theorem C08_folder_refuted : getFilenameFolder b!"a.txt" = .ok b!"a.txt" ∧
    getFilenameWithoutFolder b!"a.txt" = .ok b!"a.txt" := by decide

example : getFilenameExt b!"dir.d/file.tar.gz" = .ok b!"gz" := by decide
example : getFilenameExt b!"dir.d/file" = .ok [] := by decide
example : getFilenameFolder b!"dir.d/file" = .ok b!"dir.d/" := by decide

end Flut
