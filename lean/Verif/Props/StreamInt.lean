import Verif.Model.StreamInt
import Verif.Proofs.Text
import Verif.Proofs.CharStreamOps
import Mathlib.Algebra.Order.Ring.Int
import Mathlib.Tactic.Conv

/-! # C91: integers of every width read from a `char_stream` -/

namespace Flut

open Spec CharStream

/-- Both functions of the C library take the same characters for a number. -/
theorem strtol_scan (bits : Nat) (p : Str) : strtol bits p = match scanNumber (p.dropWhile isSpaceC) with
    | none => (0, 0)
    | some (m, neg, r) => (saturate bits (signed m neg), p.length - r.length) := by
  have hdrop : p.drop (p.takeWhile isSpaceC).length = p.dropWhile isSpaceC := by
    have e := congrArg (List.drop (p.takeWhile isSpaceC).length) (List.takeWhile_append_dropWhile (p := isSpaceC) (l := p))
    rw [List.drop_left] at e
    exact e.symm
  have hlen : p.length = (p.takeWhile isSpaceC).length + (p.dropWhile isSpaceC).length := by
    rw [← List.length_append, List.takeWhile_append_dropWhile]
  unfold strtol scanNumber
  simp only [hdrop]
  generalize p.dropWhile isSpaceC = q at *
  have hsplit : ∀ t : Str, (t.takeWhile isDigitC).length + (t.dropWhile isDigitC).length = t.length := by
    intro t; rw [← List.length_append, List.takeWhile_append_dropWhile]
  cases q with
  | nil => simp
  | cons c cs =>
    by_cases hc : c = 45 ∨ c = 43
    · have h1 : (some c = some (45 : Byte) ∨ some c = some (43 : Byte)) := by simpa using hc
      simp only [hc, h1, if_true, List.head?_cons, List.tail_cons, List.drop_succ_cons, List.drop_zero]
      split
      · rfl
      · have := hsplit cs
        simp only [signed, List.length_cons] at hlen ⊢
        congr 1
        omega
    · have h1 : ¬ (some c = some (45 : Byte) ∨ some c = some (43 : Byte)) := by simpa using hc
      simp only [hc, h1, if_false, List.head?_cons, List.drop_zero]
      split
      · rfl
      · have := hsplit (c :: cs)
        simp only [signed, List.length_cons] at hlen this ⊢
        congr 1
        omega

/-- Where the stream is after a number. -/
theorem processEnd_number (s : CharStream) (pre sep rest : Str) (hpre : pre ≠ []) (hsep : ∀ c ∈ sep, c ∈ s.delims)
    (hrest : ∀ c ∈ rest.head?, c ≠ 0 ∧ c ∉ s.delims) (hin : s.rest = pre ++ (sep ++ rest)) :
    s.processEnd (s.rest.length - (sep ++ rest).length) = { s with rest := rest, eof := s.eof || rest.isEmpty } := by
  have hlen : s.rest.length - (sep ++ rest).length = pre.length := by rw [hin]; simp only [List.length_append]; omega
  have hpos : pre.length ≠ 0 := by simpa using hpre
  unfold processEnd
  rw [hlen, if_neg hpos, hin, List.drop_left]
  unfold skipDelims
  simp only
  rw [dropWhile_append_stop]
  · unfold testEof
    cases rest <;> simp
  · intro d hd; exact strchr_iff.2 (.inr (hsep d hd))
  · intro d hd
    have := hrest d hd
    rw [← Bool.not_eq_true, strchr_iff]
    rintro (h | h)
    · exact this.1 h
    · exact this.2 h

/-- A numeral in the stream, after blanks and before delimiters. -/
structure NumeralNext (s : CharStream) (x : Int) (rest : Str) : Prop where
  intro ::
  text : ∃ ws w sep, s.rest = ws ++ w ++ (sep ++ rest) ∧ (∀ c ∈ ws, IsSpace c) ∧ Numeral w x ∧ (∀ c ∈ sep, c ∈ s.delims) ∧
    ∀ c ∈ (sep ++ rest).head?, ¬ (48 ≤ c.toNat ∧ c.toNat ≤ 57)
  stop : ∀ c ∈ rest.head?, c ≠ 0 ∧ c ∉ s.delims

theorem NumeralNext.scan {s : CharStream} {x : Int} {rest : Str} (h : NumeralNext s x rest) :
    ∃ m neg r, scanNumber (s.rest.dropWhile isSpaceC) = some (m, neg, r) ∧ signed m neg = x ∧ m = x.natAbs ∧
      s.processEnd (s.rest.length - r.length) = { s with rest := rest, eof := s.eof || rest.isEmpty } := by
  obtain ⟨⟨ws, w, sep, h1, h2, h3, h4, h5⟩, h6⟩ := h
  obtain ⟨m, neg, e1, e2, e3⟩ := scanNumber_numeral h3 h5
  refine ⟨m, neg, sep ++ rest, ?_, e2, e3, ?_⟩
  · rw [h1, dropSpace_numeral h2 h3, e1]
  · refine processEnd_number s (ws ++ w) sep rest ?_ h4 h6 h1
    obtain ⟨c, cs, e, _⟩ := numeral_head h3
    rw [e]; simp

theorem pow_half {b : Nat} (h : 1 ≤ b) : (2 : Int) ^ b = 2 * 2 ^ (b - 1) := by
  obtain ⟨k, rfl⟩ := Nat.exists_eq_add_of_le' h
  simp [Int.pow_succ, Int.mul_comm]

/-- A signed integer of any width: a numeral in range is read as its value, and reading goes on behind it and the delimiters
that follow. Numerals that only fit a `long` are read modulo `2^bits`. -/
theorem C91_signed (bits long : Nat) (hb : 1 ≤ bits) (hl : bits ≤ long) (s : CharStream) (x : Int) (rest : Str)
    (h : NumeralNext s x rest) :
    ∃ v, s.readInt bits long = (v, { s with rest := rest, eof := s.eof || rest.isEmpty }) ∧ InRange bits v ∧
      (InRange bits x → v = x) ∧ (InRange long x → (2 ^ bits : Int) ∣ v - x) := by
  obtain ⟨m, neg, r, h1, h2, -, h4⟩ := h.scan
  have hp : ((2 ^ bits : Nat) : Int) = 2 ^ bits := by push_cast; rfl
  have hpos : 0 < 2 ^ bits := Nat.pow_pos (by omega)
  have hh := pow_half hb
  refine ⟨(saturate long x).bmod (2 ^ bits), ?_, ?_, ?_, ?_⟩
  · unfold readInt
    rw [strtol_scan, h1]
    simp only [h2, h4]
  · have l := Int.le_bmod (x := saturate long x) hpos
    have u := Int.bmod_lt (x := saturate long x) hpos
    rw [hp] at l u
    unfold InRange
    rw [hh] at l u
    constructor <;> omega
  · intro hx
    have hle : (2 : Int) ^ (bits - 1) ≤ 2 ^ (long - 1) := pow_le_pow_right₀ (by omega) (by omega)
    unfold InRange at hx
    rw [saturate_inRange ⟨by omega, by omega⟩]
    apply Int.bmod_eq_of_le <;> rw [hp, hh] <;> omega
  · intro hx
    rw [saturate_inRange hx]
    have := Int.dvd_bmod_sub_self (x := x) (m := 2 ^ bits)
    rwa [hp] at this

/-- `long` and `long long`: numerals out of range give the limit they exceed. -/
theorem C91_signed_long (bits : Nat) (s : CharStream) (x : Int) (rest : Str) (h : NumeralNext s x rest) :
    ∃ v, s.readLong bits = (v, { s with rest := rest, eof := s.eof || rest.isEmpty }) ∧ (InRange bits x → v = x) ∧
      (x < -2 ^ (bits - 1) → v = -2 ^ (bits - 1)) ∧ (2 ^ (bits - 1) ≤ x → v = 2 ^ (bits - 1) - 1) := by
  obtain ⟨m, neg, r, h1, h2, -, h4⟩ := h.scan
  have hpos : (0 : Int) < 2 ^ (bits - 1) := pow_pos (by omega) _
  refine ⟨saturate bits x, ?_, fun hx => saturate_inRange hx, fun hx => ?_, fun hx => ?_⟩
  · unfold readLong
    rw [strtol_scan, h1]
    simp only [h2, h4]
  · unfold saturate
    rw [if_pos hx]
  · unfold saturate
    rw [if_neg (by omega), if_pos (by omega)]

example : (CharStream.readLong 8 ⟨b!"-300 x", b!" ", false, false⟩).1 = -128 := by decide

/-- What `strtoul` makes of a number that fits. -/
theorem ulong_value {long m : Nat} {neg : Bool} {x : Int} (h2 : signed m neg = x) (hm : m < 2 ^ long) :
    ∃ k : Int, (((if neg then (2 ^ long - m) % 2 ^ long else m : Nat)) : Int) = x + 2 ^ long * k ∧ (0 ≤ x → k = 0) := by
  cases neg with
  | false => exact ⟨0, by simp only [signed] at h2; simpa using h2, fun _ => rfl⟩
  | true =>
    simp only [signed, if_true] at h2 ⊢
    by_cases h0 : m = 0
    · subst h0
      exact ⟨0, by simp only [Nat.sub_zero, Nat.mod_self]; omega, fun _ => rfl⟩
    · refine ⟨1, ?_, fun h => by omega⟩
      rw [Nat.mod_eq_of_lt (by omega), Int.ofNat_sub (by omega)]
      push_cast
      omega

/-- An unsigned integer of any width: a numeral in range is read as its value; one that, without its sign, only fits an `unsigned
long` is read modulo `2^bits`, as is a negative one. -/
theorem C91_unsigned (bits long : Nat) (hl : bits ≤ long) (s : CharStream) (x : Int) (rest : Str) (h : NumeralNext s x rest) :
    ∃ v, s.readUInt bits long = (v, { s with rest := rest, eof := s.eof || rest.isEmpty }) ∧ v < 2 ^ bits ∧
      (0 ≤ x → x < 2 ^ bits → (v : Int) = x) ∧ (x.natAbs < 2 ^ long → (2 ^ bits : Int) ∣ v - x) := by
  obtain ⟨m, neg, r, h1, h2, h3, h4⟩ := h.scan
  obtain ⟨d, hd⟩ : (2 ^ bits : Nat) ∣ 2 ^ long := Nat.pow_dvd_pow 2 hl
  have hle : (2 : Nat) ^ bits ≤ 2 ^ long := Nat.pow_le_pow_right (by omega) hl
  refine ⟨(if m < 2 ^ long then (if neg then (2 ^ long - m) % 2 ^ long else m) else 2 ^ long - 1) % 2 ^ bits, ?_, ?_, ?_, ?_⟩
  · unfold readUInt strtoul
    rw [h1]
    simp only [h4]
  · exact Nat.mod_lt _ (Nat.pow_pos (by omega))
  · intro h0 hx
    have hb : x.natAbs < 2 ^ bits := by
      have : ((x.natAbs : Nat) : Int) < ((2 ^ bits : Nat) : Int) := by
        rw [Int.natAbs_of_nonneg h0]; push_cast; exact hx
      exact Int.ofNat_lt.1 this
    rw [if_pos (by omega)]
    obtain ⟨k, e, hk⟩ := ulong_value (long := long) h2 (by omega)
    rw [hk h0] at e
    have e' : (if neg then (2 ^ long - m) % 2 ^ long else m) = x.natAbs := by omega
    rw [e', Nat.mod_eq_of_lt hb]
    omega
  · intro hx
    rw [if_pos (by omega)]
    obtain ⟨k, e, -⟩ := ulong_value (long := long) h2 (by omega)
    generalize (if neg then (2 ^ long - m) % 2 ^ long else m) = V at e
    have hL : (2 : Int) ^ long = 2 ^ bits * d := by
      have := congrArg (Nat.cast : Nat → Int) hd
      push_cast at this
      exact this
    have hV := Nat.div_add_mod V (2 ^ bits)
    have hV' : (2 : Int) ^ bits * ((V / 2 ^ bits : Nat) : Int) + ((V % 2 ^ bits : Nat) : Int) = V := by
      have := congrArg (Nat.cast : Nat → Int) hV
      push_cast at this ⊢
      exact this
    refine ⟨d * k - ((V / 2 ^ bits : Nat) : Int), ?_⟩
    rw [Int.mul_sub, ← Int.mul_assoc, ← hL]
    omega

/-- `unsigned long`: likewise. -/
theorem C91_unsigned_long (bits : Nat) (s : CharStream) (x : Int) (rest : Str) (h : NumeralNext s x rest) :
    ∃ v, s.readULong bits = (v, { s with rest := rest, eof := s.eof || rest.isEmpty }) ∧ v < 2 ^ bits ∧
      (0 ≤ x → x < 2 ^ bits → (v : Int) = x) ∧ (x.natAbs < 2 ^ bits → (2 ^ bits : Int) ∣ v - x) ∧
      (2 ^ bits ≤ x.natAbs → v = 2 ^ bits - 1) := by
  obtain ⟨v, h1, h2, h3, h4⟩ := C91_unsigned bits bits (Nat.le_refl _) s x rest h
  have hpos : 0 < 2 ^ bits := Nat.pow_pos (by omega)
  have e : s.readULong bits = s.readUInt bits bits := by
    unfold readULong readUInt
    congr 1
    rw [Nat.mod_eq_of_lt]
    unfold strtoul
    split
    · exact hpos
    · simp only
      split
      · split
        · exact Nat.mod_lt _ hpos
        · assumption
      · omega
  refine ⟨v, by rw [e, h1], h2, h3, h4, ?_⟩
  intro hx
  obtain ⟨m, neg, r, e1, e2, e3, e4⟩ := h.scan
  have : s.readULong bits = (2 ^ bits - 1, { s with rest := rest, eof := s.eof || rest.isEmpty }) := by
    unfold readULong strtoul
    rw [e1]
    simp only [e4]
    rw [if_neg (by omega)]
  rw [e, h1] at this
  exact congrArg Prod.fst this

/-- Without a numeral at the front the variable becomes zero, the stream fails and nothing is consumed. -/
theorem C91_invalid (bits long : Nat) (s : CharStream) (h : ¬ ∃ x, StartsWithNumeral s.rest x) :
    s.readInt bits long = (0, { s with fail := true }) ∧ s.readUInt bits long = (0, { s with fail := true }) ∧
      s.readULong long = (0, { s with fail := true }) ∧ s.readLong long = (0, { s with fail := true }) := by
  have hn : scanNumber (s.rest.dropWhile isSpaceC) = none := by
    cases hsc : scanNumber (s.rest.dropWhile isSpaceC) with
    | none => rfl
    | some q =>
      obtain ⟨m, neg, r⟩ := q
      exact absurd ⟨_, (startsWithNumeral_iff _ _).2 ⟨m, neg, r, hsc, rfl⟩⟩ h
  have e1 : strtol long s.rest = (0, 0) := by rw [strtol_scan, hn]
  have e2 : strtoul long s.rest = (0, 0) := by rw [strtoul, hn]
  simp [readInt, readUInt, readULong, readLong, e1, e2, processEnd]

/-- Integers that do not fit are not reported: nothing tells the following results from those of a stream that holds these
numbers. -/
theorem C91_range_refuted :
    (ofCStr b!"4294967297 x").readInt 32 64 = (1, { ofCStr b!"4294967297 x" with rest := b!"x" }) ∧
    (ofCStr b!"-1 x").readUInt 32 64 = (4294967295, { ofCStr b!"-1 x" with rest := b!"x" }) ∧
    (ofCStr b!"65536 x").readUInt 16 64 = (0, { ofCStr b!"65536 x" with rest := b!"x" }) ∧
    (ofCStr b!"99999999999999999999 x").readLong 64 = (2 ^ 63 - 1, { ofCStr b!"99999999999999999999 x" with rest := b!"x" }) := by
  decide +kernel

example : NumeralNext (ofCStr b!"\t-12 ,7" b!" ,") (-12) b!"7" where
  text := ⟨b!"\t", b!"-12", b!" ,", by decide, by unfold IsSpace; decide, .minus (ds := b!"12") (by decide), by decide, by decide⟩
  stop := by decide

example : (ofCStr b!"\t-12 ,7" b!" ,").readInt 16 64 = (-12, { ofCStr b!"\t-12 ,7" b!" ," with rest := b!"7" }) := by decide +kernel

end Flut
