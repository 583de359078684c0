import Verif.Proofs.Text

/-!
# Hashes, versions and numbers as text (C46, C47, C49)
-/

namespace Flut

open Spec

/-! ## C46 -/

theorem hashLoop_eq (s : Str) (h : UInt64) : hashLoop s h = hashConstexpr s h := by
  induction s generalizing h with
  | nil => rfl
  | cons c s ih =>
    unfold hashLoop hashConstexpr
    by_cases hc : c ≠ 0
    · rw [if_pos hc, if_pos hc, UInt64.xor_comm (charTo64 c) h]; exact ih _
    · rw [if_neg hc, if_neg hc]

/-- The function at run time and the one at compile time agree on any memory, and so does the literal. -/
theorem C46_same (s : Str) :
    hashC s = hashConstexpr s fnvBasis ∧ hashLiteral s = hashStr s :=
  ⟨hashLoop_eq s _, (hashLoop_eq _ _).symm⟩

example : hashStr b!"foobar" = .ok 0x85944171f73967e8 ∧ hashLiteral b!"foobar" = .ok 0x85944171f73967e8 := by
  decide +kernel

theorem hashConstexpr_append (s t : Str) (hs : ∀ c ∈ s, c ≠ 0) (h : UInt64) :
    hashConstexpr (s ++ t) h = hashConstexpr t (s.foldl (fun h c => (h ^^^ charTo64 c) * fnvPrime) h) := by
  induction s generalizing h with
  | nil => rfl
  | cons c s ih =>
    rw [List.cons_append]
    conv => lhs; unfold hashConstexpr
    rw [if_pos (hs c (by simp)), ih (fun c hc => hs c (by simp [hc])), UInt64.xor_comm]
    rfl

/-- On text of 7-bit characters it is the published FNV-1a. -/
theorem C46_fnv1a (s : Str) (h0 : ∀ c ∈ s, c ≠ 0) (h7 : ∀ c ∈ s, c.toNat < 128) : hashStr s = .ok (fnv1a s) := by
  have e : ∀ c : Byte, c.toNat < 128 → charTo64 c = UInt64.ofNat c.toNat := by
    intro c hc
    have e : c = UInt8.ofNat c.toNat := by simp
    generalize c.toNat = n at e hc
    subst e
    revert n
    decide +kernel
  unfold hashStr hashC
  rw [hashLoop_eq, hashConstexpr_append s [0] h0]
  have h1 : ∀ h : UInt64, hashConstexpr [0] h = .ok h := fun h => rfl
  rw [h1]
  have : ∀ h : UInt64, s.foldl (fun h c => (h ^^^ charTo64 c) * fnvPrime) h
      = s.foldl (fun h b => (h ^^^ UInt64.ofNat b.toNat) * 1099511628211) h := by
    have ep : fnvPrime = 1099511628211 := by decide
    rw [ep]
    clear h0
    induction s with
    | nil => intro h; simp only [List.foldl_nil]
    | cons c s ih =>
      intro h
      simp only [List.foldl_cons]
      rw [e c (h7 c (by simp)), ih (fun c hc => h7 c (by simp [hc]))]
  have e0 : fnvBasis = 14695981039346656037 := by decide
  rw [this, e0, fnv1a]

example : (∀ c ∈ b!"foobar", c ≠ 0) ∧ (∀ c ∈ b!"foobar", c.toNat < 128) ∧ fnv1a b!"foobar" = 0x85944171f73967e8 := by
  decide +kernel

/-- On other text it is not: characters are sign-extended. -/
theorem C46_fnv1a_refuted : ¬ ∀ s : Str, (∀ c ∈ s, c ≠ 0) → hashStr s = .ok (fnv1a s) := by
  intro h
  exact absurd (h [0xC3, 0xA9] (by decide)) (by decide +kernel)

/-- Hashing goes on from the hash of what came before. -/
theorem C46_incremental (s t : Str) (hs : ∀ c ∈ s, c ≠ 0) :
    ∃ h, hashStr s = .ok h ∧ hashConstexpr (t ++ [0]) h = hashStr (s ++ t) := by
  refine ⟨s.foldl (fun h c => (h ^^^ charTo64 c) * fnvPrime) fnvBasis, ?_, ?_⟩
  · unfold hashStr hashC
    rw [hashLoop_eq, hashConstexpr_append s [0] hs]
    rfl
  · unfold hashStr hashC
    rw [hashLoop_eq, List.append_assoc, hashConstexpr_append s _ hs]

example : hashConstexpr (b!"bar" ++ [0]) 0xdcb27518fed9d577 = hashStr b!"foobar" ∧ hashStr b!"foo" = .ok 0xdcb27518fed9d577 := by
  decide +kernel

/-- A string is hashed up to its first NUL only. -/
theorem C46_nul (s t : Str) (hs : ∀ c ∈ s, c ≠ 0) : hashStr (s ++ 0 :: t) = hashStr s := by
  unfold hashStr hashC
  rw [hashLoop_eq, hashLoop_eq, List.append_assoc, hashConstexpr_append s _ hs, hashConstexpr_append s _ hs]
  rfl

example : hashStr [97, 0, 98] = hashStr [97] := C46_nul [97] [98] (by decide)

/-! ## C49 -/

theorem cstr_numeral {w : Str} {x : Int} (h : Numeral w x) : cstr w = w := by
  apply cstr_of_ne_zero
  have key : ∀ ds : Str, IsDigits ds → ∀ c ∈ ds, c ≠ 0 := by
    intro ds hd c hc e
    have := hd.2 c hc
    subst e
    simp at this
  cases h with
  | pos hd => exact key _ hd
  | plus hd =>
    intro c hc
    rcases List.mem_cons.1 hc with rfl | hc
    · decide
    · exact key _ hd c hc
  | minus hd =>
    intro c hc
    rcases List.mem_cons.1 hc with rfl | hc
    · decide
    · exact key _ hd c hc

/-- `int` survives conversion to text and back. -/
theorem C49_int (x : Int) (h : InRange 32 x) : intFrom (intTo x) = .ok x := by
  have := readInt_numeral (bits := 32) (ws := []) (rest := []) (by simp) (intStr_numeral x) (by simp) h
  unfold intFrom intTo
  simp only [List.nil_append, List.append_nil] at this
  rw [this]
  rfl

example : InRange 32 (-2147483648) ∧ intTo (-2147483648) = b!"-2147483648" := by
  constructor
  · unfold InRange; decide
  · decide +kernel

/-- `long` and `long long`, of any width. -/
theorem C49_long (bits : Nat) (x : Int) (h : InRange bits x) : longFrom bits (longTo x) = .ok x := by
  unfold longFrom stol longTo
  have hn := intStr_numeral x
  rw [cstr_numeral hn]
  have e := dropSpace_numeral (ws := []) (rest := []) (by simp) hn
  obtain ⟨m, neg, h1, h2, _⟩ := scanNumber_numeral (rest := []) hn (by simp)
  simp only [List.nil_append, List.append_nil] at e h1
  rw [e, h1]
  simp only [h2]
  unfold InRange at h
  rw [if_pos h]

example : InRange 64 (-9223372036854775808) := by unfold InRange; decide

/-- `unsigned long` and `unsigned long long`. -/
theorem C49_ulong (bits : Nat) (n : Nat) (h : n < 2 ^ bits) : ulongFrom bits (ulongTo n) = .ok n := by
  unfold ulongFrom stoul ulongTo
  have hn : Numeral (natStr n) (n : Int) := by
    have := Numeral.pos (natStr_digits n).1
    rwa [(natStr_digits n).2] at this
  rw [cstr_numeral hn]
  have e := dropSpace_numeral (ws := []) (rest := []) (by simp) hn
  obtain ⟨m, neg, h1, h2, h3⟩ := scanNumber_numeral (rest := []) hn (by simp)
  simp only [List.nil_append, List.append_nil] at e h1
  rw [e, h1]
  have hm : m = n := by simpa using h3
  subst hm
  have hneg : neg = false ∨ m = 0 := by
    cases neg with
    | false => exact .inl rfl
    | true =>
      right
      unfold signed at h2
      simp only [if_true] at h2
      omega
  simp only [h, if_true]
  congr 1
  rcases hneg with rfl | rfl
  · rfl
  · cases neg <;> simp

example : ulongFrom 64 b!"18446744073709551615" = .ok 18446744073709551615 := by decide +kernel

theorem stol_eq (bits : Nat) (s : Str) : stol bits s =
    match scanNumber ((cstr s).dropWhile isSpaceC) with
    | none => .throws .invalidArgument
    | some (m, neg, _) =>
      if -(2 ^ (bits - 1) : Int) ≤ signed m neg ∧ signed m neg < 2 ^ (bits - 1) then .ok (signed m neg) else .throws .outOfRange := rfl

/-- The conversions to `long` throw exactly when there are no digits or the value is out of range, and otherwise give the
value. -/
theorem C49_long_exact (bits : Nat) (s : Str) :
    (∀ x, longFrom bits s = .ok x ↔ StartsWithNumeral (cstr s) x ∧ InRange bits x) ∧
    (longFrom bits s = .throws .outOfRange ↔ ∃ x, StartsWithNumeral (cstr s) x ∧ ¬ InRange bits x) ∧
    (longFrom bits s = .throws .invalidArgument ↔ ¬ ∃ x, StartsWithNumeral (cstr s) x) ∧
    longFrom bits s ≠ .ub ∧ longFrom bits s ≠ .diverges := by
  unfold longFrom
  rw [stol_eq]
  simp only [startsWithNumeral_iff]
  cases hsc : scanNumber ((cstr s).dropWhile isSpaceC) with
  | none => simp
  | some r =>
    obtain ⟨m, neg, rest⟩ := r
    have he : ∀ x, (∃ m' neg' rest', some (m, neg, rest) = some (m', neg', rest') ∧ signed m' neg' = x) ↔ signed m neg = x := by
      intro x
      constructor
      · rintro ⟨m', neg', rest', h, h2⟩
        injection h with h
        injection h with h1 h3
        injection h3 with h3 h4
        rw [h1, h3, h2]
      · intro h; exact ⟨m, neg, rest, rfl, h⟩
    simp only [he]
    generalize hv : signed m neg = v
    by_cases hr : -(2 ^ (bits - 1) : Int) ≤ v ∧ v < 2 ^ (bits - 1)
    · rw [if_pos hr]
      have hr' : InRange bits v := hr
      refine ⟨fun x => ⟨?_, ?_⟩, ⟨?_, ?_⟩, ⟨?_, ?_⟩, by simp, by simp⟩
      · intro h; injection h with h; subst h; exact ⟨rfl, hr'⟩
      · rintro ⟨rfl, _⟩; rfl
      · intro h; cases h
      · rintro ⟨x, rfl, h⟩; exact absurd hr' h
      · intro h; cases h
      · intro h; exact absurd ⟨v, rfl⟩ h
    · rw [if_neg hr]
      have hr' : ¬ InRange bits v := hr
      refine ⟨fun x => ⟨?_, ?_⟩, ⟨?_, ?_⟩, ⟨?_, ?_⟩, by simp, by simp⟩
      · intro h; cases h
      · rintro ⟨rfl, h⟩; exact absurd h hr'
      · intro _; exact ⟨v, rfl, hr'⟩
      · intro _; rfl
      · intro h; cases h
      · intro h; exact absurd ⟨v, rfl⟩ h

example : longFrom 64 b!"  -12abc" = .ok (-12) ∧ longFrom 64 b!"abc" = .throws .invalidArgument ∧
    longFrom 64 b!"9223372036854775808" = .throws .outOfRange := by decide +kernel

/-- The conversions to `unsigned long` accept a minus sign and negate modulo `2^bits`. -/
theorem C49_ulong_exact (bits : Nat) (s : Str) (x : Int) (h : StartsWithNumeral (cstr s) x) :
    ulongFrom bits s = if x.natAbs < 2 ^ bits then .ok (x % 2 ^ bits).toNat else .throws .outOfRange := by
  obtain ⟨m, neg, rest, h1, h2⟩ := (startsWithNumeral_iff _ _).1 h
  unfold ulongFrom stoul
  rw [h1]
  have hm : x.natAbs = m := by
    subst h2
    unfold signed
    cases neg <;> simp
  rw [hm]
  by_cases hlt : m < 2 ^ bits
  · simp only [hlt, if_true]
    congr 1
    have hp : ((2 ^ bits : Nat) : Int) = (2 : Int) ^ bits := by simp
    have hpos : 0 < 2 ^ bits := Nat.two_pow_pos bits
    rw [← hp]
    generalize 2 ^ bits = p at *
    cases neg
    · simp only [Bool.false_eq_true, if_false]
      have hx : x = (m : Int) := by rw [← h2]; rfl
      rw [hx, Int.emod_eq_of_lt (by omega) (by omega)]
      simp
    · simp only [if_true]
      have hx : x = -(m : Int) := by rw [← h2]; rfl
      rw [hx]
      by_cases h0 : m = 0
      · subst h0; simp
      · have : (-(m : Int)) % (p : Int) = ((p - m : Nat) : Int) := by
          rw [← Int.add_emod_right, Int.emod_eq_of_lt (by omega) (by omega)]
          omega
        rw [this, Nat.mod_eq_of_lt (by omega)]
        omega
  · simp only [hlt, if_false]

example : StartsWithNumeral (cstr b!"-1") (-1) ∧ ulongFrom 64 b!"-1" = .ok 18446744073709551615 := by
  refine ⟨(startsWithNumeral_iff _ _).2 ⟨1, true, [], by decide +kernel, rfl⟩, by decide +kernel⟩

/-- Without digits they throw. -/
theorem C49_ulong_invalid (bits : Nat) (s : Str) (h : ¬ ∃ x, StartsWithNumeral (cstr s) x) :
    ulongFrom bits s = .throws .invalidArgument := by
  unfold ulongFrom stoul
  cases hsc : scanNumber ((cstr s).dropWhile isSpaceC) with
  | none => rfl
  | some r => exact absurd ⟨_, (startsWithNumeral_iff _ _).2 ⟨r.1, r.2.1, r.2.2, hsc, rfl⟩⟩ h

example : ulongFrom 64 b!"abc" = .throws .invalidArgument := by decide +kernel

/-- `string_is< int >` says yes to every text. -/
theorem C49_string_is_int (s : Str) : stringIs intFrom s = .ok true := rfl

example : stringIs intFrom b!"certainly not" = .ok true := C49_string_is_int _

/-- `string_is< long >` says yes exactly to texts that start with an integer in range. -/
theorem C49_string_is_long (bits : Nat) (s : Str) :
    stringIs (longFrom bits) s = .ok true ↔ ∃ x, StartsWithNumeral (cstr s) x ∧ InRange bits x := by
  obtain ⟨h1, h2, h3, h4, h5⟩ := C49_long_exact bits s
  unfold stringIs
  cases h : longFrom bits s with
  | ok x => simp only [true_iff]; exact ⟨x, (h1 x).1 h⟩
  | throws e =>
    constructor
    · intro h; cases h
    · rintro ⟨x, hx⟩
      rw [(h1 x).2 hx] at h
      cases h
  | ub => exact absurd h h4
  | diverges => exact absurd h h5

example : stringIs (longFrom 64) b!"7 apples" = .ok true ∧ stringIs (longFrom 64) b!"apples" = .ok false := by decide +kernel

/-- An enumeration survives when its values do. -/
theorem C49_enum {E : Type} (toInt : E → Int) (ofInt : Int → E) (h : ∀ e, ofInt (toInt e) = e) (e : E)
    (hr : InRange 32 (toInt e)) : enumFrom ofInt (enumTo toInt e) = .ok e := by
  unfold enumFrom enumTo
  rw [C49_int _ hr]
  simp only [Res.bind_ok, h]

example : enumFrom (fun x => x == 1) (enumTo (fun b : Bool => if b then 1 else 0) true) = .ok true := by decide +kernel

/-- `bool` survives too; but the words of the language do not. -/
theorem C49_bool (b : Bool) : boolFrom (boolTo b) = .ok b := by cases b <;> decide +kernel

theorem C49_bool_words_refuted : boolFrom b!"true" = .ok false := by decide +kernel

/-! ## C47 -/

theorem stop_dot (s : Str) : ∀ c ∈ ((46 :: s : Str)).head?, ¬ (48 ≤ c.toNat ∧ c.toNat ≤ 57) := by
  intro c hc
  simp only [List.head?_cons, Option.mem_def, Option.some.injEq] at hc
  subst hc
  decide

theorem stop_space (s : Str) : ∀ c ∈ ((32 :: s : Str)).head?, ¬ (48 ≤ c.toNat ∧ c.toNat ≤ 57) := by
  intro c hc
  simp only [List.head?_cons, Option.mem_def, Option.some.injEq] at hc
  subst hc
  decide

theorem readChar_dot (s : Str) : IStream.readChar { rest := 46 :: s } = (some 46, { rest := s }) := by
  unfold IStream.readChar IStream.sentry
  have : isSpaceC 46 = false := by decide
  simp [IStream.good, this]

theorem readInt_front (x : Int) (rest : Str) (h : InRange 32 x)
    (hr : ∀ c ∈ rest.head?, ¬ (48 ≤ c.toNat ∧ c.toNat ≤ 57)) :
    IStream.readInt 32 { rest := intStr x ++ rest } = (some x, { rest := rest, eof := rest.isEmpty }) :=
  readInt_numeral (ws := []) (by simp) (intStr_numeral x) hr h

theorem parse_three (a b c : Int) (rest : Str) (ha : InRange 32 a) (hb : InRange 32 b) :
    Version.parse (intStr a ++ 46 :: intStr b ++ 46 :: intStr c ++ rest) =
      (let s := (IStream.readInt 32 { rest := intStr c ++ rest })
       let (patch, s) := s
       let (_, s) := s.readChar
       let (build, s) := if s.good then s.readInt 32 else (none, s)
       let (post, _) := if s.good then s.readString else (none, s)
       ⟨some a, some b, patch, build, post.getD []⟩) := by
  unfold Version.parse
  have e : intStr a ++ 46 :: intStr b ++ 46 :: intStr c ++ rest
      = intStr a ++ 46 :: (intStr b ++ 46 :: (intStr c ++ rest)) := by simp
  simp only [e, readInt_front a _ ha (stop_dot _), List.isEmpty_cons, readChar_dot, readInt_front b _ hb (stop_dot _)]

theorem streamSpace_false {c : Byte} (h : ¬ IsSpace c) : isSpaceC c = false := by
  rw [← streamSpace_iff] at h
  simpa using h

theorem readString_word {w : Str} (hne : w ≠ []) (hw : ∀ c ∈ w, ¬ IsSpace c) :
    IStream.readString { rest := 32 :: w } = (some w, { rest := [], eof := true }) := by
  cases w with
  | nil => exact absurd rfl hne
  | cons c w =>
    have hc := streamSpace_false (hw c (by simp))
    have h32 : isSpaceC 32 = true := by decide
    have e1 : (c :: w).takeWhile (fun c => !isSpaceC c) = c :: w := by
      have := takeWhile_append_stop (p := fun c => !isSpaceC c) (a := c :: w) (b := [])
        (fun d hd => by simp [streamSpace_false (hw d hd)]) (by simp)
      simpa using this
    have e2 : (c :: w).dropWhile (fun c => !isSpaceC c) = [] := by
      have := dropWhile_append_stop (p := fun c => !isSpaceC c) (a := c :: w) (b := [])
        (fun d hd => by simp [streamSpace_false (hw d hd)]) (by simp)
      simpa using this
    unfold IStream.readString IStream.sentry
    have e3 : (32 :: c :: w : Str).dropWhile isSpaceC = c :: w := by
      rw [List.dropWhile_cons, if_pos h32, List.dropWhile_cons, if_neg (by simp [hc])]
    simp only [IStream.good, Bool.not_false, Bool.and_self, if_true, e3, List.isEmpty_cons, Bool.false_eq_true, if_false, e1, e2]
    rfl

/-- A version with a positive build number, and no postfix or a single word, reads back as itself.
The full property also covers build 0 and other postfixes; see the refutations. -/
theorem C47_round_trip_partial (a b c d : Int) (post : Str) (ha : InRange 32 a) (hb : InRange 32 b) (hc : InRange 32 c)
    (hd : InRange 32 d) (hpos : 0 < d) (hpost : ∀ x ∈ post, ¬ IsSpace x) :
    ∃ s, (Version.mk' a b c d post).toStr = .ok s ∧ Version.parse s = Version.mk' a b c d post := by
  refine ⟨intStr a ++ 46 :: intStr b ++ 46 :: intStr c ++ (46 :: intStr d ++ if post.isEmpty then [] else 32 :: post), ?_, ?_⟩
  · unfold Version.toStr Version.mk'
    simp only [gt_iff_lt, hpos, if_true]
    cases post <;> simp
  · rw [parse_three a b c _ ha hb]
    simp only [List.cons_append]
    rw [readInt_front c _ hc (stop_dot _)]
    simp only [List.isEmpty_cons, readChar_dot, IStream.good, Bool.not_false, Bool.and_self, if_true]
    cases post with
    | nil =>
      simp only [List.isEmpty_nil, if_true]
      rw [readInt_front d _ hd (by simp)]
      rfl
    | cons p post =>
      simp only [List.isEmpty_cons, Bool.false_eq_true, if_false]
      rw [readInt_front d _ hd (stop_space _)]
      simp only [List.isEmpty_cons, Bool.not_false, Bool.and_self, if_true]
      rw [readString_word (by simp) hpost]
      rfl

example : (Version.mk' 1 2 3 4 b!"beta").toStr = .ok b!"1.2.3.4 beta" ∧
    Version.parse b!"1.2.3.4 beta" = Version.mk' 1 2 3 4 b!"beta" := by decide +kernel

/-- Without a build number the first three numbers read back, the build number stays indeterminate. -/
theorem C47_no_build (a b c : Int) (ha : InRange 32 a) (hb : InRange 32 b) (hc : InRange 32 c) :
    ∃ s, (Version.mk' a b c).toStr = .ok s ∧ Version.parse s = ⟨some a, some b, some c, none, []⟩ ∧
      (Version.parse s).toStr = .ub := by
  have key : Version.parse (intStr a ++ 46 :: intStr b ++ 46 :: intStr c ++ []) = ⟨some a, some b, some c, none, []⟩ := by
    rw [parse_three a b c _ ha hb, readInt_front c _ hc (by simp)]
    rfl
  rw [List.append_nil] at key
  refine ⟨intStr a ++ 46 :: intStr b ++ 46 :: intStr c, ?_, key, ?_⟩
  · unfold Version.toStr Version.mk'
    simp
  · rw [key]; rfl

example : Version.parse b!"1.2.3" = ⟨some 1, some 2, some 3, none, []⟩ := by decide +kernel

/-- So the property fails for every version without a build number; with a postfix the postfix is lost, and a postfix of
two words loses the second. -/
theorem C47_round_trip_refuted :
    ((Version.mk' 1 2 3).toStr = .ok b!"1.2.3" ∧ Version.parse b!"1.2.3" ≠ Version.mk' 1 2 3) ∧
    ((Version.mk' 1 2 3 0 b!"beta").toStr = .ok b!"1.2.3 beta" ∧
      Version.parse b!"1.2.3 beta" = ⟨some 1, some 2, some 3, some 0, []⟩) ∧
    ((Version.mk' 1 2 3 4 b!"release candidate").toStr = .ok b!"1.2.3.4 release candidate" ∧
      Version.parse b!"1.2.3.4 release candidate" = Version.mk' 1 2 3 4 b!"release") := by decide +kernel

end Flut
