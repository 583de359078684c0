import Verif.Model.StreamReal
import Verif.Spec.StreamReal
import Verif.Proofs.RealWords
import Verif.Proofs.FloatOps

/-! # Lemmas on real numbers in C++ streams -/

namespace Flut.Stream

open Spec

theorem ten_pos (k : Int) : (0 : ℚ) < 10 ^ k := zpow_pos (by norm_num) k

theorem stripZeros_spec (b : Str) : ∃ k, b = stripZeros b ++ List.replicate k 48 := by
  unfold stripZeros
  have h := List.takeWhile_append_dropWhile (p := fun c : Byte => c == 48) (l := b.reverse)
  refine ⟨(b.reverse.takeWhile (· == 48)).length, ?_⟩
  have e : b.reverse.takeWhile (· == 48) = List.replicate (b.reverse.takeWhile (· == 48)).length 48 := by
    apply List.eq_replicate_of_mem
    intro c hc
    have := List.all_takeWhile (p := fun c : Byte => c == 48) (l := b.reverse)
    simpa using List.all_eq_true.1 this c hc
  conv_lhs => rw [← List.reverse_reverse b, ← h, List.reverse_append, e, List.reverse_replicate]
  
theorem stripZeros_last (b : Str) : (stripZeros b).getLast? ≠ some 48 := by
  unfold stripZeros
  rw [List.getLast?_reverse]
  intro h
  have := List.head?_dropWhile_not (fun c : Byte => c == 48) b.reverse
  rw [h] at this
  simp at this

theorem joinPoint_decimal {a b : Str} (ha : IsDigits a) (hb : ∀ d ∈ b, 48 ≤ d.toNat ∧ d.toNat ≤ 57) :
    Decimal (joinPoint a b) (decValue (a ++ b) / 10 ^ b.length) := by
  obtain ⟨k, hk⟩ := stripZeros_spec b
  have hs : ∀ d ∈ stripZeros b, 48 ≤ d.toNat ∧ d.toNat ≤ 57 := by
    intro d hd; apply hb; rw [hk]; exact List.mem_append_left _ hd
  have e : (decValue (a ++ b) / 10 ^ b.length : ℚ) = decValue (a ++ stripZeros b) / 10 ^ (stripZeros b).length := by
    have h1 : decValue (a ++ b) = decValue (a ++ stripZeros b) * 10 ^ k := by
      conv_lhs => rw [hk, ← List.append_assoc, decValue_append', decValue_zeros, List.length_replicate]
      omega
    have h2 : b.length = (stripZeros b).length + k := by
      conv_lhs => rw [hk, List.length_append, List.length_replicate]
    rw [h1, h2, pow_add]
    push_cast
    field_simp
  rw [e]
  unfold joinPoint
  split
  · rename_i h
    rw [List.isEmpty_iff.1 h]
    simpa using Decimal.int ha
  · exact Decimal.point ha.2 hs (by simp [ha.1])

theorem scale_abs (n m : ℚ) {u : ℚ} (hu : 0 < u) : |n * u - m| = |n - m / u| * u := by
  rw [← abs_of_pos hu, ← abs_mul, abs_of_pos hu, sub_mul, div_mul_cancel₀ _ hu.ne']

/-- The nearest multiple of the unit in which `m` has six digits. -/
theorem six_nearest {m : ℚ} (h : 0 < m) {e : Int} (he : e = Int.log 10 m) :
    100000 ≤ roundEven (m / 10 ^ (e - 5)) ∧ roundEven (m / 10 ^ (e - 5)) ≤ 1000000 ∧
      ∀ z, SixDigits z → |(roundEven (m / 10 ^ (e - 5)) : ℚ) * 10 ^ (e - 5) - m| ≤ |z - m| := by
  have hu := ten_pos (e - 5)
  have h1 : (10 : ℚ) ^ e ≤ m := by
    have := Int.zpow_log_le_self (b := 10) (by norm_num) h
    rw [he]; exact_mod_cast this
  have h2 : m < (10 : ℚ) ^ (e + 1) := by
    have := Int.lt_zpow_succ_log_self (b := 10) (by norm_num) m
    rw [he]; exact_mod_cast this
  have e1 : (10 : ℚ) ^ e = 100000 * 10 ^ (e - 5) := by
    rw [show (100000 : ℚ) = 10 ^ (5 : Int) by norm_num, ← zpow_add₀ (by norm_num)]; congr 1; ring
  have e2 : (10 : ℚ) ^ (e + 1) = 1000000 * 10 ^ (e - 5) := by
    rw [show (1000000 : ℚ) = 10 ^ (6 : Int) by norm_num, ← zpow_add₀ (by norm_num)]; congr 1; ring
  rw [e1] at h1
  rw [e2] at h2
  refine ⟨le_roundEven (by push_cast; rwa [le_div_iff₀ hu]), roundEven_le (by push_cast; rw [div_le_iff₀ hu]; exact h2.le), ?_⟩
  rintro z ⟨n, k, hn, rfl⟩
  by_cases hk : e - 5 ≤ k
  · have e3 : (n * 10 ^ k : ℚ) = ((n * 10 ^ (k - (e - 5)).toNat : Int) : ℚ) * 10 ^ (e - 5) := by
      push_cast
      rw [mul_assoc, ← zpow_natCast, Int.toNat_of_nonneg (by omega), ← zpow_add₀ (by norm_num)]
      congr 2; ring
    rw [e3, scale_abs _ _ hu, scale_abs _ _ hu]
    exact mul_le_mul_of_nonneg_right (roundEven_nearest _ _) hu.le
  · have h3 : (n * 10 ^ k : ℚ) ≤ 100000 * 10 ^ (e - 5) := by
      have hk6 : (10 : ℚ) ^ k ≤ 10 ^ (e - 6) := zpow_le_zpow_right₀ (by norm_num) (by omega)
      have e4 : (10 : ℚ) ^ (e - 5) = 10 * 10 ^ (e - 6) := by
        rw [← zpow_one_add₀ (by norm_num)]; congr 1; ring
      have hn' : (n : ℚ) ≤ 1000000 := by exact_mod_cast hn.le
      calc (n * 10 ^ k : ℚ) ≤ 1000000 * 10 ^ (e - 6) := mul_le_mul hn' hk6 (ten_pos k).le (by norm_num)
        _ = 100000 * 10 ^ (e - 5) := by rw [e4]; ring
    have h4 := mul_le_mul_of_nonneg_right (roundEven_nearest (m / 10 ^ (e - 5)) 100000) hu.le
    rw [← scale_abs _ _ hu, ← scale_abs _ _ hu] at h4
    push_cast at h4
    refine h4.trans ?_
    rw [abs_of_nonpos (by linarith), abs_of_nonpos (by linarith)]
    linarith

/-- Six digits of a number. -/
theorem sixDigits_spec {m : ℚ} (h : 0 < m) : 100000 ≤ (sixDigits m).1 ∧ (sixDigits m).1 < 1000000 ∧
    Nearest SixDigits m ((sixDigits m).1 * 10 ^ ((sixDigits m).2 - 5)) := by
  obtain ⟨h1, h2, h3⟩ := six_nearest h rfl
  unfold sixDigits
  simp only
  generalize Int.log 10 m = e at *
  generalize roundEven (m / 10 ^ (e - 5)) = r at *
  lift r to Nat using by omega
  rw [Int.toNat_natCast]
  push_cast at h3
  split
  · rename_i hr
    subst hr
    refine ⟨le_rfl, by norm_num, ⟨100000, _, by norm_num, rfl⟩, ?_⟩
    have e2 : (((1000000 : Nat) : Int) : ℚ) * 10 ^ (e - 5) = ((100000 : Nat) : ℚ) * 10 ^ (e + 1 - 5) := by
      rw [show e + 1 - 5 = 1 + (e - 5) by ring, zpow_one_add₀ (by norm_num)]; norm_num; ring
    intro z hz
    have := h3 z hz
    push_cast at e2 this ⊢
    rwa [← e2]
  · exact ⟨by omega, by omega, ⟨r, _, by omega, rfl⟩, h3⟩

/-- Of two numbers that are equally near, the one with the even last digit is written. -/
theorem six_tie' {m z : ℚ} (h : 0 < m) (hz : SixDigits z) {q : ℚ} (hq : q = (sixDigits m).1 * 10 ^ ((sixDigits m).2 - 5)) (hne : z ≠ q)
    (ht : |z - m| = |q - m|) : (sixDigits m).1 % 2 = 0 := by
  obtain ⟨h1, h2, h3⟩ := six_nearest h rfl
  have hu := ten_pos (Int.log 10 m - 5)
  have hlow : 100000 * 10 ^ (Int.log 10 m - 5) ≤ m := by
    have := Int.zpow_log_le_self (b := 10) (by norm_num) h
    have e1 : (10 : ℚ) ^ Int.log 10 m = 100000 * 10 ^ (Int.log 10 m - 5) := by
      rw [show (100000 : ℚ) = 10 ^ (5 : Int) by norm_num, ← zpow_add₀ (by norm_num)]; congr 1; ring
    rw [← e1]; exact_mod_cast this
  have hqr : q = roundEven (m / 10 ^ (Int.log 10 m - 5)) * 10 ^ (Int.log 10 m - 5) := by
    rw [hq]
    unfold sixDigits
    simp only
    have hr : ((roundEven (m / 10 ^ (Int.log 10 m - 5))).toNat : Int) = roundEven (m / 10 ^ (Int.log 10 m - 5)) :=
      Int.toNat_of_nonneg (by omega)
    split
    · rename_i hr'
      rw [hr'] at hr
      rw [← hr, show Int.log 10 m + 1 - 5 = 1 + (Int.log 10 m - 5) by ring, zpow_one_add₀ (by norm_num)]
      norm_num; ring
    · rw [show ((roundEven (m / 10 ^ (Int.log 10 m - 5)) : Int) : ℚ) = (((roundEven (m / 10 ^ (Int.log 10 m - 5))).toNat : Int) : ℚ) by rw [hr]]
      push_cast; rfl
  have hpar : roundEven (m / 10 ^ (Int.log 10 m - 5)) % 2 = 0 := by
    have hzm : ∃ j : Int, z = j * 10 ^ (Int.log 10 m - 5) := by
      obtain ⟨n, k, hn, rfl⟩ := hz
      by_cases hk : Int.log 10 m - 5 ≤ k
      · refine ⟨n * 10 ^ (k - (Int.log 10 m - 5)).toNat, ?_⟩
        push_cast
        rw [mul_assoc, ← zpow_natCast, Int.toNat_of_nonneg (by omega), ← zpow_add₀ (by norm_num)]
        congr 2; ring
      · refine ⟨100000, ?_⟩
        have hle : (n * 10 ^ k : ℚ) ≤ 100000 * 10 ^ (Int.log 10 m - 5) := by
          have hk6 : (10 : ℚ) ^ k ≤ 10 ^ (Int.log 10 m - 6) := zpow_le_zpow_right₀ (by norm_num) (by omega)
          have e4 : (10 : ℚ) ^ (Int.log 10 m - 5) = 10 * 10 ^ (Int.log 10 m - 6) := by
            rw [← zpow_one_add₀ (by norm_num)]; congr 1; ring
          have hn' : (n : ℚ) ≤ 1000000 := by exact_mod_cast hn.le
          calc (n * 10 ^ k : ℚ) ≤ 1000000 * 10 ^ (Int.log 10 m - 6) := mul_le_mul hn' hk6 (ten_pos k).le (by norm_num)
            _ = 100000 * 10 ^ (Int.log 10 m - 5) := by rw [e4]; ring
        have h4 := mul_le_mul_of_nonneg_right (roundEven_nearest (m / 10 ^ (Int.log 10 m - 5)) 100000) hu.le
        rw [← scale_abs _ _ hu, ← scale_abs _ _ hu, ← hqr, ← ht] at h4
        push_cast at h4 ⊢
        rw [abs_of_nonpos (by linarith), abs_of_nonpos (by linarith)] at h4
        linarith
    obtain ⟨j, rfl⟩ := hzm
    apply roundEven_tie (n := j)
    · rintro rfl; exact hne hqr.symm
    · rw [hqr, scale_abs _ _ hu, scale_abs _ _ hu] at ht
      exact mul_right_cancel₀ hu.ne' ht
  unfold sixDigits
  simp only
  split
  · norm_num
  · omega

theorem expText_numeral (x : Int) : Numeral (expText x) x := by
  obtain ⟨h1, h2⟩ := natStr_digits x.natAbs
  have key : ∀ ds : Str, ds = (if x.natAbs < 10 then 48 :: natStr x.natAbs else natStr x.natAbs) → IsDigits ds ∧ decValue ds = x.natAbs := by
    intro ds hds
    split at hds
    · subst hds
      refine ⟨⟨by simp, ?_⟩, ?_⟩
      · intro d hd
        rcases List.mem_cons.1 hd with rfl | hd
        · decide
        · exact h1.2 d hd
      · rw [show (48 :: natStr x.natAbs) = [48] ++ natStr x.natAbs from rfl, decValue_append', h2]
        simp [decValue]
    · subst hds; exact ⟨h1, h2⟩
  obtain ⟨h3, h4⟩ := key _ rfl
  unfold expText
  split
  · have := Numeral.minus h3
    rw [h4] at this
    convert this using 1
    omega
  · have := Numeral.plus h3
    rw [h4] at this
    convert this using 1
    omega

/-- The number that is written. -/
def six (m : ℚ) : ℚ := if m = 0 then 0 else (sixDigits m).1 * 10 ^ ((sixDigits m).2 - 5)

theorem six_near {m : ℚ} (h : 0 ≤ m) : Nearest SixDigits m (six m) := by
  unfold six
  split
  · rename_i h0
    subst h0
    exact ⟨⟨0, 0, by norm_num, by simp⟩, fun z _ => by simp⟩
  · exact (sixDigits_spec (lt_of_le_of_ne h (Ne.symm ‹_›))).2.2

theorem six_tie {m z : ℚ} (h : 0 ≤ m) (hz : SixDigits z) (hne : z ≠ six m) (ht : |z - m| = |six m - m|) :
    ∃ (n : Nat) (k : Int), 50000 ≤ n ∧ n < 500000 ∧ six m = (2 * n : Nat) * 10 ^ k := by
  unfold six at *
  split at hne
  · rename_i h0
    subst h0
    simp at ht
    exact absurd ht hne
  · rename_i h0
    rw [if_neg h0] at ht ⊢
    have hpos := lt_of_le_of_ne h (Ne.symm h0)
    have h1 := six_tie' hpos hz rfl hne ht
    obtain ⟨h2, h3, -⟩ := sixDigits_spec hpos
    refine ⟨(sixDigits m).1 / 2, (sixDigits m).2 - 5, by omega, by omega, ?_⟩
    rw [show 2 * ((sixDigits m).1 / 2) = (sixDigits m).1 by omega]

theorem digit_take {d : Str} (h : ∀ c ∈ d, 48 ≤ c.toNat ∧ c.toNat ≤ 57) (k : Nat) :
    (∀ c ∈ d.take k, 48 ≤ c.toNat ∧ c.toNat ≤ 57) ∧ ∀ c ∈ d.drop k, 48 ≤ c.toNat ∧ c.toNat ≤ 57 :=
  ⟨fun c hc => h c (List.mem_of_mem_take hc), fun c hc => h c (List.mem_of_mem_drop hc)⟩

theorem joinPoint_noexp {a b : Str} (ha : ∀ d ∈ a, 48 ≤ d.toNat ∧ d.toNat ≤ 57) (hb : ∀ d ∈ b, 48 ≤ d.toNat ∧ d.toNat ≤ 57) :
    ∀ c ∈ joinPoint a b, (48 ≤ c.toNat ∧ c.toNat ≤ 57) ∨ c = 46 := by
  obtain ⟨k, hk⟩ := stripZeros_spec b
  intro c hc
  unfold joinPoint at hc
  split at hc
  · exact .inl (ha c hc)
  · rcases List.mem_append.1 hc with hc | hc
    · exact .inl (ha c hc)
    · rcases List.mem_cons.1 hc with hc | hc
      · exact .inr hc
      · exact .inl (hb c (by rw [hk]; exact List.mem_append_left _ hc))

theorem no_e {w : Str} (h : ∀ c ∈ w, (48 ≤ c.toNat ∧ c.toNat ≤ 57) ∨ c = 46) : c!"e" ∉ w ∧ c!"E" ∉ w := by
  constructor <;> intro hc <;> rcases h _ hc with h | h <;> revert h <;> decide

theorem magText_decimal {m : ℚ} (h : 0 ≤ m) : Decimal (magText m) (six m) := by
  unfold magText six
  split
  · simpa [decValue] using Decimal.int (a := b!"0") (by decide)
  · obtain ⟨h1, h2, -⟩ := sixDigits_spec (lt_of_le_of_ne h (Ne.symm ‹_›))
    generalize sixDigits m = p at *
    rcases p with ⟨n, x⟩
    simp only at h1 h2 ⊢
    obtain ⟨hl, hv, hd⟩ := pad6_spec h2
    generalize pad6 n = d at *
    split
    · rename_i hx
      split
      · rename_i h0
        obtain ⟨ht, hdr⟩ := digit_take hd (x.toNat + 1)
        have hne : d.take (x.toNat + 1) ≠ [] := by
          intro hc
          have := congrArg List.length hc
          simp [hl] at this
        have := joinPoint_decimal ⟨hne, ht⟩ hdr
        rw [List.take_append_drop, hv, List.length_drop, hl] at this
        convert this using 1
        rw [div_eq_mul_inv, ← zpow_natCast, ← zpow_neg]
        congr 2
        omega
      · rename_i h0
        have := joinPoint_decimal (a := b!"0") (b := List.replicate ((-x).toNat - 1) 48 ++ d) (by decide) (by
          intro c hc
          rcases List.mem_append.1 hc with hc | hc
          · rw [(List.mem_replicate.1 hc).2]; decide
          · exact hd c hc)
        rw [decValue_append', decValue_append', hv, decValue_zeros, List.length_append, List.length_replicate, hl] at this
        convert this using 1
        rw [show decValue b!"0" = 0 from rfl]
        push_cast
        rw [div_eq_mul_inv, ← zpow_natCast, ← zpow_neg]
        simp only [zero_mul, zero_add]
        congr 2
        push_cast
        omega
    · obtain ⟨ht, hdr⟩ := digit_take hd 1
      have hne : d.take 1 ≠ [] := by
        intro hc
        have := congrArg List.length hc
        simp [hl] at this
      have h3 := joinPoint_decimal ⟨hne, ht⟩ hdr
      obtain ⟨h4, h5⟩ := no_e (joinPoint_noexp ht hdr)
      have := Decimal.exp h3 h4 h5 (.inl rfl) (expText_numeral x)
      rw [List.take_append_drop, hv, List.length_drop, hl] at this
      convert this using 1
      rw [show x - 5 = -5 + x by ring, zpow_add₀ (by norm_num)]
      norm_num
      ring

/-! ## Reading -/

theorem takeWhile_digits {a r : Str} (ha : ∀ d ∈ a, 48 ≤ d.toNat ∧ d.toNat ≤ 57) (hr : ∀ c ∈ r.head?, ¬ (48 ≤ c.toNat ∧ c.toNat ≤ 57)) :
    (a ++ r).takeWhile isDigitC = a := by
  have ha' : ∀ d ∈ a, isDigitC d = true := fun d hd => isDigitC_iff.2 (ha d hd)
  rw [List.takeWhile_append_of_pos ha']
  cases r with
  | nil => simp
  | cons c r =>
    have : isDigitC c = false := by
      rw [Bool.eq_false_iff]; intro h; exact hr c rfl (isDigitC_iff.1 h)
    simp [this]

theorem signPart_none {p : Str} (h : ∀ c ∈ p.head?, c ≠ 43 ∧ c ≠ 45) : signPart p = [] := by
  unfold signPart
  rw [if_neg]
  rintro (h1 | h1)
  · exact (h _ h1).2 rfl
  · exact (h _ h1).1 rfl

theorem signPart_sign {sign p : Str} (hs : sign = [] ∨ sign = [43] ∨ sign = [45]) (h : ∀ c ∈ p.head?, c ≠ 43 ∧ c ≠ 45) :
    signPart (sign ++ p) = sign := by
  rcases hs with rfl | rfl | rfl
  · exact signPart_none h
  · rfl
  · rfl

theorem expPart_numeral {e : Byte} {n rest : Str} {k : Int} (he : e = c!"e" ∨ e = c!"E") (hn : Numeral n k) (hr : Ends rest) :
    expPart (e :: n ++ rest) = e :: n := by
  have hr' : ∀ c ∈ rest.head?, ¬ (48 ≤ c.toNat ∧ c.toNat ≤ 57) := fun c hc => (hr c hc).1
  have key : ∀ sign ds : Str, (sign = [] ∨ sign = [43] ∨ sign = [45]) → IsDigits ds →
      expPart (e :: (sign ++ ds) ++ rest) = e :: (sign ++ ds) := by
    intro sign ds hs hd
    have h1 : signPart (sign ++ (ds ++ rest)) = sign := by
      apply signPart_sign hs
      obtain ⟨hne, hd⟩ := hd
      cases ds with
      | nil => exact absurd rfl hne
      | cons d ds =>
        intro c hc
        cases hc
        have := hd d (by simp)
        constructor <;> rintro rfl <;> revert this <;> decide
    unfold expPart
    rw [if_pos (by rcases he with rfl | rfl <;> simp)]
    simp only [List.cons_append, List.tail_cons, List.append_assoc, h1, List.drop_left, List.take_succ_cons, List.take_zero,
      List.nil_append, takeWhile_digits hd.2 hr']
  cases hn with
  | pos hd => exact key [] _ (.inl rfl) hd
  | plus hd => exact key [43] _ (.inr (.inl rfl)) hd
  | minus hd => exact key [45] _ (.inr (.inr rfl)) hd

theorem expPart_none {p : Str} (h : ∀ c ∈ p.head?, c ≠ c!"e" ∧ c ≠ c!"E") : expPart p = [] := by
  unfold expPart
  rw [if_neg]
  rintro (h1 | h1)
  · exact (h _ h1).1 rfl
  · exact (h _ h1).2 rfl

theorem numPrefix_parts {sign a b r : Str} (hs : sign = [] ∨ sign = [43] ∨ sign = [45]) (ha : ∀ d ∈ a, 48 ≤ d.toNat ∧ d.toNat ≤ 57)
    (hb : b = [] ∨ ∃ b', b = 46 :: b' ∧ (∀ d ∈ b', 48 ≤ d.toNat ∧ d.toNat ≤ 57)) (hne : ¬ (a = [] ∧ b.length ≤ 1))
    (hr : ∀ c ∈ r.head?, ¬ (48 ≤ c.toNat ∧ c.toNat ≤ 57) ∧ c ≠ 46) :
    numPrefix (sign ++ (a ++ (b ++ r))) = sign ++ (a ++ (b ++ expPart r)) := by
  have h1 : signPart (sign ++ (a ++ (b ++ r))) = sign := by
    apply signPart_sign hs
    intro c hc
    cases a with
    | cons d a =>
      cases hc
      have := ha c (by simp)
      constructor <;> rintro rfl <;> revert this <;> decide
    | nil =>
      rcases hb with rfl | ⟨b', rfl, hb'⟩
      · simp at hne
      · cases hc; decide
  have h2 : (a ++ (b ++ r)).takeWhile isDigitC = a := by
    apply takeWhile_digits ha
    intro c hc
    rcases hb with rfl | ⟨b', rfl, hb'⟩
    · exact (hr c hc).1
    · cases hc; decide
  have h3 : pointPart (b ++ r) = b := by
    unfold pointPart
    rcases hb with rfl | ⟨b', rfl, hb'⟩
    · rw [if_neg]
      intro h; exact (hr _ h).2 rfl
    · rw [if_pos (by rfl)]
      simp only [List.cons_append, List.tail_cons]
      rw [takeWhile_digits hb' (fun c hc => (hr c hc).1)]
  unfold numPrefix
  simp only [h1, List.drop_left, h2, h3]
  rw [if_neg]
  · simp
  · simpa using hne

theorem numPrefix_mant {sign w r : Str} {y : ℚ} (hs : sign = [] ∨ sign = [43] ∨ sign = [45]) (hw : Decimal w y) (he : c!"e" ∉ w)
    (hE : c!"E" ∉ w) (hr : ∀ c ∈ r.head?, ¬ (48 ≤ c.toNat ∧ c.toNat ≤ 57) ∧ c ≠ 46) :
    numPrefix (sign ++ (w ++ r)) = sign ++ (w ++ expPart r) := by
  rcases Decimal.mantissa hw he hE with ⟨a, rfl, -, ha⟩ | ⟨a, b, rfl, ha, hb, hne, -⟩
  · simpa using numPrefix_parts hs ha.2 (.inl rfl) (by simp [ha.1]) hr
  · have := numPrefix_parts hs ha (.inr ⟨b, rfl, hb⟩) (by
      rintro ⟨rfl, h⟩
      simp at h
      simp [h] at hne) hr
    simpa using this

theorem numPrefix_decimal {sign w rest : Str} {x : ℚ} (hs : sign = [] ∨ sign = [43] ∨ sign = [45]) (h : Decimal w x) (hr : Ends rest) :
    numPrefix (sign ++ w ++ rest) = sign ++ w := by
  have hr1 : ∀ c ∈ rest.head?, ¬ (48 ≤ c.toNat ∧ c.toNat ≤ 57) ∧ c ≠ 46 := by
    intro c hc
    refine ⟨(hr c hc).1, ?_⟩
    rintro rfl
    exact (hr _ hc).2 (by decide)
  have hr2 : expPart rest = [] := by
    apply expPart_none
    intro c hc
    constructor <;> rintro rfl <;> exact (hr _ hc).2 (by decide)
  have mant : ∀ w y r, _ := fun w y r => numPrefix_mant hs (w := w) (y := y) (r := r)
  have hd : ∀ a : Str, (∀ c ∈ a, (48 ≤ c.toNat ∧ c.toNat ≤ 57) ∨ c = 46) → c!"e" ∉ a ∧ c!"E" ∉ a := fun a h => no_e h
  cases h with
  | int ha =>
    obtain ⟨h1, h2⟩ := hd _ (fun c hc => .inl (ha.2 c hc))
    have := mant _ _ rest (.int ha) h1 h2 hr1
    rw [hr2, List.append_nil, ← List.append_assoc] at this
    exact this
  | point ha hb hne =>
    obtain ⟨h1, h2⟩ := hd _ (fun c hc => by
      rcases List.mem_append.1 hc with hc | hc
      · exact .inl (ha c hc)
      · rcases List.mem_cons.1 hc with hc | hc
        · exact .inr hc
        · exact .inl (hb c hc))
    have := mant _ _ rest (.point ha hb hne) h1 h2 hr1
    rw [hr2, List.append_nil, ← List.append_assoc] at this
    exact this
  | exp hw he hE hc hn =>
    rename_i w y e n k
    have := mant w y (e :: n ++ rest) hw he hE (by
      intro c h
      cases h
      rcases hc with rfl | rfl <;> decide)
    rw [expPart_numeral hc hn hr] at this
    simpa using this

/-- A decimal number in the stream is read. -/
theorem readReal_decimal (f : Fmt) (old : Flt) {ws sign w rest : Str} {x : ℚ} (hws : ∀ c ∈ ws, IsSpace c)
    (hs : sign = [] ∨ sign = [43] ∨ sign = [45]) (h : Decimal w x) (hr : Ends rest) :
    readReal f old ⟨ws ++ sign ++ w ++ rest, false⟩ =
      (.fin (sign == [45]) (min (f.rnd x) f.maxVal), ⟨rest, decide (f.maxVal < f.rnd x)⟩) := by
  obtain ⟨⟨c, cs, hw, hc⟩, -⟩ := decimal_chars h
  have e1 : (ws ++ sign ++ w ++ rest).dropWhile isSpaceC = sign ++ w ++ rest := by
    rw [List.append_assoc, List.append_assoc, dropWhile_append_stop]
    · simp
    · intro d hd; exact streamSpace_iff.2 (hws d hd)
    · intro d hd
      rcases hs with rfl | rfl | rfl
      · rw [hw] at hd
        cases hd
        rcases hc with hc | rfl
        · have : c.toNat ≠ 0 := by omega
          rw [Bool.eq_false_iff]
          intro h
          rcases streamSpace_iff.1 h with h | rfl | rfl | rfl
          · simp only [List.mem_cons, List.not_mem_nil, or_false] at h
            rcases h with rfl | rfl | rfl <;> revert hc <;> decide
          all_goals revert hc; decide
        · decide
      · cases hd; decide
      · cases hd; decide
  have e2 := strtod_decimal f (ws := []) (rest := []) (by simp) hs h (by intro c hc; simp at hc)
  rw [List.nil_append, List.append_nil] at e2
  unfold readReal
  simp only [e1, numPrefix_decimal hs h hr, List.drop_left, e2]
  rw [if_neg (by simp), if_neg (by simp [hw])]
  unfold Fmt.convert
  split_ifs with h1
  · simp [h1, min_eq_right h1.le]
  · simp [h1, min_eq_left (not_lt.1 h1)]

/-! ## The form of the text -/

theorem decValue_lt {a : Str} (h : ∀ d ∈ a, 48 ≤ d.toNat ∧ d.toNat ≤ 57) : decValue a < 10 ^ a.length := by
  induction a using List.reverseRecOn with
  | nil => simp [decValue]
  | append_singleton a c ih =>
    have h1 := ih (fun d hd => h d (by simp [hd]))
    have h2 := h c (by simp)
    rw [decValue_append', List.length_append, List.length_singleton, pow_add]
    have e : decValue [c] = c.toNat - 48 := by simp [decValue]
    rw [e]
    omega

theorem joinPoint_point {a b : Str} (ha : ∀ d ∈ a, 48 ≤ d.toNat ∧ d.toNat ≤ 57) (hb : ∀ d ∈ b, 48 ≤ d.toNat ∧ d.toNat ≤ 57)
    (h : c!"." ∈ joinPoint a b) : (joinPoint a b).getLast? ≠ some c!"." ∧ (joinPoint a b).getLast? ≠ some c!"0" := by
  obtain ⟨k, hk⟩ := stripZeros_spec b
  unfold joinPoint at h ⊢
  split at h
  · exact absurd (ha _ h) (by decide)
  · rename_i hne
    rw [if_neg hne]
    have hne' : stripZeros b ≠ [] := by simpa using hne
    have hl := stripZeros_last b
    have e : (a ++ 46 :: stripZeros b).getLast? = (stripZeros b).getLast? := by
      rw [List.getLast?_append, List.getLast?_cons]
      rw [List.getLast?_eq_some_getLast hne']
      simp
    rw [e]
    refine ⟨?_, hl⟩
    intro hc
    have := hb 46 (by rw [hk]; exact List.mem_append_left _ (List.mem_of_getLast? hc))
    revert this; decide

theorem joinPoint_head {a b : Str} (ha : a ≠ []) : (joinPoint a b).head? = a.head? := by
  unfold joinPoint
  split
  · rfl
  · rw [List.head?_append, List.head?_eq_some_head ha]; rfl

theorem pad6_head {n : Nat} (h1 : 100000 ≤ n) (h2 : n < 1000000) : ∃ c cs, pad6 n = c :: cs ∧ c ≠ c!"0" := by
  obtain ⟨hl, hv, hd⟩ := pad6_spec h2
  generalize pad6 n = d at *
  cases d with
  | nil => simp at hl
  | cons c cs =>
    refine ⟨c, cs, rfl, ?_⟩
    rintro rfl
    have h3 := decValue_lt (a := cs) (fun d hd' => hd d (by simp [hd']))
    rw [show ((48 : Byte) :: cs) = [48] ++ cs from rfl, decValue_append'] at hv
    simp only [List.length_cons] at hl
    have : cs.length = 5 := by omega
    rw [this] at h3 hv
    simp only [show decValue [48] = 0 from rfl] at hv
    omega

theorem six_bounds {n : Nat} {x : Int} (h1 : 100000 ≤ n) (h2 : n < 1000000) :
    (10 : ℚ) ^ x ≤ n * 10 ^ (x - 5) ∧ (n * 10 ^ (x - 5) : ℚ) < 10 ^ (x + 1) := by
  have hu := ten_pos (x - 5)
  have e1 : (10 : ℚ) ^ x = 100000 * 10 ^ (x - 5) := by
    rw [show (100000 : ℚ) = 10 ^ (5 : Int) by norm_num, ← zpow_add₀ (by norm_num)]; congr 1; ring
  have e2 : (10 : ℚ) ^ (x + 1) = 1000000 * 10 ^ (x - 5) := by
    rw [show (1000000 : ℚ) = 10 ^ (6 : Int) by norm_num, ← zpow_add₀ (by norm_num)]; congr 1; ring
  have h1' : (100000 : ℚ) ≤ n := by exact_mod_cast h1
  have h2' : (n : ℚ) < 1000000 := by exact_mod_cast h2
  rw [e1, e2]
  exact ⟨mul_le_mul_of_nonneg_right h1' hu.le, mul_lt_mul_of_pos_right h2' hu⟩

theorem magText_form {m : ℚ} (h : 0 ≤ m) : Concise (magText m) (six m) ∧
    (c!"e" ∈ magText m ↔ six m ≠ 0 ∧ (six m < 1 / 10000 ∨ 1000000 ≤ six m)) := by
  unfold magText six
  split
  · refine ⟨⟨b!"0", [], rfl, .inl rfl, by decide, by decide, fun _ => by norm_num⟩, ?_⟩
    constructor
    · intro h; revert h; decide
    · intro h; exact absurd rfl h.1
  · obtain ⟨h1, h2, -⟩ := sixDigits_spec (lt_of_le_of_ne h (Ne.symm ‹_›))
    generalize sixDigits m = p at *
    rcases p with ⟨n, x⟩
    simp only at h1 h2 ⊢
    obtain ⟨hl, hv, hd⟩ := pad6_spec h2
    obtain ⟨c0, cs0, hcs, hc0⟩ := pad6_head h1 h2
    obtain ⟨b1, b2⟩ := six_bounds (x := x) h1 h2
    have hpos : (n * 10 ^ (x - 5) : ℚ) ≠ 0 := (lt_of_lt_of_le (ten_pos x) b1).ne'
    generalize pad6 n = d at *
    generalize (n * 10 ^ (x - 5) : ℚ) = q at *
    split
    · rename_i hx
      have hrange : ¬ (q < 1 / 10000 ∨ 1000000 ≤ q) := by
        have r1 : (10 : ℚ) ^ (-4 : Int) ≤ 10 ^ x := zpow_le_zpow_right₀ (by norm_num) hx.1
        have r2 : (10 : ℚ) ^ (x + 1) ≤ 10 ^ (6 : Int) := zpow_le_zpow_right₀ (by norm_num) (by omega)
        norm_num at r1 r2
        rintro (hc | hc) <;> linarith
      split
      · rename_i h0
        obtain ⟨ht, hdr⟩ := digit_take hd (x.toNat + 1)
        have hne : d.take (x.toNat + 1) ≠ [] := by
          intro hc
          have := congrArg List.length hc
          rw [List.length_take, hl, List.length_nil] at this
          omega
        have hnoe := (no_e (joinPoint_noexp ht hdr)).1
        refine ⟨⟨_, [], (List.append_nil _).symm, .inl rfl, hnoe, joinPoint_point ht hdr, ?_⟩, ?_⟩
        · intro hc
          rw [joinPoint_head hne, hcs] at hc
          simp at hc
          exact absurd hc hc0
        · exact ⟨fun hc => absurd hc hnoe, fun hc => absurd hc.2 hrange⟩
      · rename_i h0
        have hd' : ∀ c ∈ List.replicate ((-x).toNat - 1) 48 ++ d, 48 ≤ c.toNat ∧ c.toNat ≤ 57 := by
          intro c hc
          rcases List.mem_append.1 hc with hc | hc
          · rw [(List.mem_replicate.1 hc).2]; decide
          · exact hd c hc
        have hz : ∀ c ∈ (b!"0" : Str), 48 ≤ c.toNat ∧ c.toNat ≤ 57 := by decide
        have hnoe := (no_e (joinPoint_noexp hz hd')).1
        refine ⟨⟨_, [], (List.append_nil _).symm, .inl rfl, hnoe, joinPoint_point hz hd', ?_⟩, ?_⟩
        · intro _
          have r : (10 : ℚ) ^ (x + 1) ≤ 10 ^ (0 : Int) := zpow_le_zpow_right₀ (by norm_num) (by omega)
          rw [zpow_zero] at r
          linarith
        · exact ⟨fun hc => absurd hc hnoe, fun hc => absurd hc.2 hrange⟩
    · rename_i hx
      obtain ⟨ht, hdr⟩ := digit_take hd 1
      have hne : d.take 1 ≠ [] := by
        intro hc
        have := congrArg List.length hc
        simp [hl] at this
      have hnoe := (no_e (joinPoint_noexp ht hdr)).1
      refine ⟨⟨_, _, rfl, .inr rfl, hnoe, joinPoint_point ht hdr, ?_⟩, ?_⟩
      · intro hc
        rw [joinPoint_head hne, hcs] at hc
        simp at hc
        exact absurd hc hc0
      · refine ⟨fun _ => ⟨hpos, ?_⟩, fun _ => by simp⟩
        by_cases h4 : -4 ≤ x
        · right
          have r2 : (10 : ℚ) ^ (6 : Int) ≤ 10 ^ x := zpow_le_zpow_right₀ (by norm_num) (by omega)
          norm_num at r2
          linarith
        · left
          have r1 : (10 : ℚ) ^ (x + 1) ≤ 10 ^ (-4 : Int) := zpow_le_zpow_right₀ (by norm_num) (by omega)
          norm_num at r1
          linarith

theorem magText_noE {m : ℚ} (h : 0 ≤ m) : c!"E" ∉ magText m := by
  unfold magText
  split
  · decide
  · obtain ⟨h1, h2, -⟩ := sixDigits_spec (lt_of_le_of_ne h (Ne.symm ‹_›))
    generalize sixDigits m = p at *
    rcases p with ⟨n, x⟩
    simp only at h1 h2 ⊢
    obtain ⟨hl, hv, hd⟩ := pad6_spec h2
    generalize pad6 n = d at *
    split
    · split
      · obtain ⟨ht, hdr⟩ := digit_take hd (x.toNat + 1)
        exact (no_e (joinPoint_noexp ht hdr)).2
      · refine (no_e (joinPoint_noexp (by decide) ?_)).2
        intro c hc
        rcases List.mem_append.1 hc with hc | hc
        · rw [(List.mem_replicate.1 hc).2]; decide
        · exact hd c hc
    · obtain ⟨ht, hdr⟩ := digit_take hd 1
      intro hc
      rcases List.mem_append.1 hc with hc | hc
      · exact (no_e (joinPoint_noexp ht hdr)).2 hc
      · rcases List.mem_cons.1 hc with hc | hc
        · revert hc; decide
        · have key : ∀ w (k : Int), Numeral w k → c!"E" ∉ w := by
            intro w k hw
            have hds : ∀ ds : Str, IsDigits ds → c!"E" ∉ ds := by
              intro ds h hc
              exact absurd (h.2 _ hc) (by decide)
            cases hw with
            | pos h => exact hds _ h
            | plus h => simp [hds _ h]
            | minus h => simp [hds _ h]
          exact key _ _ (expText_numeral x) hc

/-- Whole numbers are written without point. -/
theorem concise_digits {w : Str} {n : Nat} (h : Decimal w n) (hc : Concise w n) (he : c!"e" ∉ w) (hE : c!"E" ∉ w) :
    IsDigits w ∧ decValue w = n ∧ (w.head? = some c!"0" → n = 0) := by
  obtain ⟨a, e, hw, hea, -, hpt, hhd⟩ := hc
  have : e = [] := by
    rcases hea with h | h
    · exact h
    · exfalso; apply he; rw [hw]
      exact List.mem_append_right _ (List.mem_of_head? h)
  subst this
  rw [List.append_nil] at hw
  subst hw
  have hhd' : w.head? = some c!"0" → n = 0 := by
    intro h
    have := hhd h
    have : n < 1 := by exact_mod_cast this
    omega
  rcases Decimal.mantissa h he hE with ⟨a, rfl, hx, ha⟩ | ⟨a, b, rfl, ha, hb, hne, hx⟩
  · exact ⟨ha, by exact_mod_cast hx.symm, hhd'⟩
  · exfalso
    obtain ⟨l1, l2⟩ := hpt (by simp)
    rcases List.eq_nil_or_concat b with rfl | ⟨b', c, rfl⟩
    · apply l1; simp
    · have hcd := hb c (by simp)
      have hc48 : c ≠ 48 := by
        rintro rfl
        apply l2
        rw [List.getLast?_append, List.getLast?_cons]
        simp
      have hc48' : c.toNat ≠ 48 := fun h => hc48 (UInt8.toNat_inj.1 h)
      have e1 : decValue (a ++ b'.concat c) = n * 10 ^ (b'.concat c).length := by
        rw [eq_div_iff (by positivity)] at hx
        exact_mod_cast hx.symm
      rw [List.concat_eq_append, ← List.append_assoc, decValue_append', List.length_append, List.length_singleton, pow_add,
        ← mul_assoc] at e1
      have e : decValue [c] = c.toNat - 48 := by simp [decValue]
      rw [e] at e1
      omega

/-! ## There and back -/

/-- Numbers with six digits are not close to each other. -/
theorem six_gap {q z : ℚ} (hq : SixDigits q) (hz : SixDigits z) (h : z < q) : q / 1000000 ≤ q - z := by
  obtain ⟨n, k, hn, rfl⟩ := hq
  obtain ⟨j, l, hj, rfl⟩ := hz
  have hk := ten_pos k
  have hl := ten_pos l
  have hn' : (n : ℚ) ≤ 1000000 := by exact_mod_cast hn.le
  by_cases hkl : k ≤ l
  · have e3 : (j * 10 ^ l : ℚ) = ((j * 10 ^ (l - k).toNat : Nat) : ℚ) * 10 ^ k := by
      push_cast
      rw [mul_assoc, ← zpow_natCast, Int.toNat_of_nonneg (by omega), ← zpow_add₀ (by norm_num)]
      congr 2; ring
    rw [e3] at h ⊢
    have h1 : ((j * 10 ^ (l - k).toNat : Nat) : ℚ) < n := lt_of_mul_lt_mul_right h hk.le
    have h2 : ((j * 10 ^ (l - k).toNat : Nat) : ℚ) + 1 ≤ n := by exact_mod_cast h1
    generalize ((j * 10 ^ (l - k).toNat : Nat) : ℚ) = J at *
    rw [← sub_mul, div_le_iff₀ (by norm_num)]
    have h3 : (n : ℚ) * 10 ^ k ≤ 1000000 * 10 ^ k := mul_le_mul_of_nonneg_right hn' hk.le
    have h4 : 1 * 10 ^ k ≤ (n - J) * 10 ^ k := mul_le_mul_of_nonneg_right (by linarith) hk.le
    linarith
  · have e3 : (n * 10 ^ k : ℚ) = ((n * 10 ^ (k - l).toNat : Nat) : ℚ) * 10 ^ l := by
      push_cast
      rw [mul_assoc, ← zpow_natCast, Int.toNat_of_nonneg (by omega), ← zpow_add₀ (by norm_num)]
      congr 2; ring
    rw [e3] at h ⊢
    have h1 : (j : ℚ) < ((n * 10 ^ (k - l).toNat : Nat) : ℚ) := lt_of_mul_lt_mul_right h hl.le
    have h2 : (j : ℚ) + 1 ≤ ((n * 10 ^ (k - l).toNat : Nat) : ℚ) := by exact_mod_cast h1
    have hj' : (j : ℚ) + 1 ≤ 1000000 := by exact_mod_cast hj
    generalize ((n * 10 ^ (k - l).toNat : Nat) : ℚ) = N at *
    rw [← sub_mul, div_le_iff₀ (by norm_num)]
    have h5 : N ≤ (N - j) * 1000000 := by
      rcases le_total N 1000000 with h | h <;> linarith
    have := mul_le_mul_of_nonneg_right h5 hl.le
    linarith

/-- Of numbers up to `M`, none is written as more than the last six-digit number before it, if the next one is further away. -/
theorem six_top {N : Nat} {k : Int} {M m q : ℚ} (h1 : 100000 ≤ N) (h2 : N < 1000000) (hM : N * 10 ^ k ≤ M) (hM' : 2 * M < (2 * N + 1) * 10 ^ k)
    (hm : m ≤ M) (hq : Nearest SixDigits m q) : q ≤ N * 10 ^ k := by
  by_contra hc
  have hk := ten_pos k
  push Not at hc
  have hnear := hq.2 _ ⟨N, k, h2, rfl⟩
  have hge : (N + 1) * 10 ^ k ≤ q := by
    obtain ⟨⟨n, l, hn, rfl⟩, -⟩ := hq
    by_cases hkl : k ≤ l
    · have e3 : (n * 10 ^ l : ℚ) = ((n * 10 ^ (l - k).toNat : Nat) : ℚ) * 10 ^ k := by
        push_cast
        rw [mul_assoc, ← zpow_natCast, Int.toNat_of_nonneg (by omega), ← zpow_add₀ (by norm_num)]
        congr 2; ring
      rw [e3] at hc ⊢
      have h1 : (N : ℚ) < ((n * 10 ^ (l - k).toNat : Nat) : ℚ) := lt_of_mul_lt_mul_right hc hk.le
      have h2 : (N : ℚ) + 1 ≤ ((n * 10 ^ (l - k).toNat : Nat) : ℚ) := by exact_mod_cast h1
      exact mul_le_mul_of_nonneg_right h2 hk.le
    · exfalso
      have hk6 : (10 : ℚ) ^ l ≤ 10 ^ (k - 1) := zpow_le_zpow_right₀ (by norm_num) (by omega)
      have e4 : (10 : ℚ) ^ k = 10 * 10 ^ (k - 1) := by
        rw [← zpow_one_add₀ (by norm_num)]; congr 1; ring
      have hn' : (n : ℚ) ≤ 1000000 := by exact_mod_cast hn.le
      have hN' : (100000 : ℚ) ≤ N := by exact_mod_cast h1
      have h3 : (n * 10 ^ l : ℚ) ≤ 1000000 * 10 ^ (k - 1) := mul_le_mul hn' hk6 (ten_pos l).le (by norm_num)
      have h4 : 100000 * 10 ^ k ≤ (N : ℚ) * 10 ^ k := mul_le_mul_of_nonneg_right hN' hk.le
      rw [e4] at h4 hc
      linarith
  have hqm : |q - m| = q - m := abs_of_nonneg (by linarith)
  rw [hqm] at hnear
  rcases le_total m (N * 10 ^ k) with h | h
  · rw [abs_of_nonneg (by linarith)] at hnear
    linarith
  · rw [abs_of_nonpos (by linarith)] at hnear
    linarith

theorem six_le {f : Fmt} (hf : f = .double ∨ f = .single) {m : ℚ} (h0 : 0 ≤ m) (h : m ≤ f.maxVal) : six m ≤ f.maxVal := by
  rcases hf with rfl | rfl
  · have e : ((179769 : Nat) : ℚ) * 10 ^ (303 : Int) ≤ Fmt.double.maxVal := by decide +kernel
    exact (six_top (by norm_num) (by norm_num) e (by decide +kernel) h (six_near h0)).trans e
  · have e : ((340282 : Nat) : ℚ) * 10 ^ (33 : Int) ≤ Fmt.single.maxVal := by decide +kernel
    exact (six_top (by norm_num) (by norm_num) e (by decide +kernel) h (six_near h0)).trans e

theorem six_le_max {f : Fmt} (hf : f = .double ∨ f = .single) {m : ℚ} (h0 : 0 ≤ m) (h : m ≤ f.maxVal) : f.rnd (six m) ≤ f.maxVal := by
  have h1 := six_le hf h0 h
  have h2 : 0 ≤ six m := decimal_nonneg (magText_decimal h0)
  have h3 := Fmt.rnd_mono (prec_pos hf) h2 h1
  rwa [Fmt.rnd_self f (prec_pos hf) (h2.trans h1) (maxVal_binary hf)] at h3

theorem six_back {f : Fmt} (hf : f = .double ∨ f = .single) {q : ℚ} (hq : SixDigits q) (hn : q = 0 ∨ (2 : ℚ) ^ (f.emin + f.prec - 1) ≤ q) :
    six (f.rnd q) = q := by
  rcases hn with rfl | hn
  · rw [Fmt.rnd_zero]; simp [six]
  have hq0 : 0 < q := lt_of_lt_of_le (zpow_pos (by norm_num) _) hn
  have herr : |f.rnd q - q| ≤ q / 2 ^ 24 := by
    have h1 := Fmt.rnd_near f q
    have h2 : (2 : ℚ) ^ f.ulpExp q ≤ q / 2 ^ 23 := by
      have hlog : (2 : ℚ) ^ Int.log 2 q ≤ q := by
        have := Int.zpow_log_le_self (b := 2) (by norm_num) hq0
        exact_mod_cast this
      have hle : f.emin + f.prec - 1 ≤ Int.log 2 q := by
        rw [← Int.zpow_le_iff_le_log (by norm_num) hq0]
        exact_mod_cast hn
      have hpr : (24 : Int) ≤ f.prec := by rcases hf with rfl | rfl <;> decide
      have : f.ulpExp q ≤ Int.log 2 q - 23 := by
        unfold Fmt.ulpExp
        apply max_le <;> omega
      calc (2 : ℚ) ^ f.ulpExp q ≤ 2 ^ (Int.log 2 q - 23) := zpow_le_zpow_right₀ (by norm_num) this
        _ = 2 ^ Int.log 2 q / 2 ^ 23 := by rw [zpow_sub₀ (by norm_num)]; norm_num
        _ ≤ q / 2 ^ 23 := div_le_div_of_nonneg_right hlog (by norm_num)
    refine h1.trans ?_
    have e : q / 2 ^ 24 = q / 2 ^ 23 / 2 := by ring
    rw [e]
    linarith
  obtain ⟨hs, hnear⟩ := six_near (m := f.rnd q) (Fmt.rnd_nonneg f hq0.le)
  have h3 := hnear q hq
  have h4 : |q - f.rnd q| ≤ q / 2 ^ 24 := by rw [abs_sub_comm]; exact herr
  generalize f.rnd q = m at *
  rw [abs_le] at h4
  have h5 := abs_le.1 (h3.trans (abs_le.2 h4))
  by_contra hne
  rcases lt_or_gt_of_ne hne with hlt | hlt
  · have := six_gap hq hs hlt
    norm_num at *
    linarith
  · have := six_gap hs hq hlt
    norm_num at *
    linarith

end Flut.Stream
