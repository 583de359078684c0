import Verif.Model.Real
import Verif.Spec.Real
import Verif.Proofs.Text
import Mathlib.Tactic.Linarith
import Mathlib.Tactic.Ring
import Mathlib.Tactic.FieldSimp
import Mathlib.Tactic.Positivity
import Mathlib.Tactic.NormNum

/-! # Rounding and real numbers as text -/

namespace Flut

open Spec CharStream

/-! ## Nearest integer -/

theorem roundEven_near (q : ℚ) : |(roundEven q : ℚ) - q| ≤ 1 / 2 := by
  have h1 := Int.floor_le q
  have h2 := Int.lt_floor_add_one q
  rw [abs_le]
  unfold roundEven
  simp only
  split_ifs <;> push_cast <;> constructor <;> linarith

theorem roundEven_nearest (q : ℚ) (n : Int) : |(roundEven q : ℚ) - q| ≤ |(n : ℚ) - q| := by
  by_cases h : n = roundEven q
  · rw [h]
  · have h1 := roundEven_near q
    have h2 : (1 : ℚ) ≤ |(n : ℚ) - roundEven q| := by
      rw [← Int.cast_sub, ← Int.cast_abs]
      exact_mod_cast Int.one_le_abs (sub_ne_zero.2 h)
    have h3 : |(n : ℚ) - roundEven q| ≤ |(n : ℚ) - q| + |(roundEven q : ℚ) - q| := by
      rw [abs_sub_comm (roundEven q : ℚ) q]
      exact abs_sub_le _ _ _
    linarith

theorem roundEven_int (n : Int) : roundEven n = n := by
  have h := roundEven_nearest n n
  rw [sub_self, abs_zero] at h
  have := abs_eq_zero.1 (le_antisymm h (abs_nonneg _))
  exact_mod_cast sub_eq_zero.1 this

theorem roundEven_nonneg {q : ℚ} (h : 0 ≤ q) : 0 ≤ roundEven q := by
  have h1 := roundEven_near q
  rw [abs_le] at h1
  have : (-1 : ℚ) < roundEven q := by linarith [h1.1]
  have : (-1 : Int) < roundEven q := by exact_mod_cast this
  omega

theorem roundEven_le {q : ℚ} {n : Int} (h : q ≤ n) : roundEven q ≤ n := by
  by_contra hc
  have h1 : ((n : ℚ) + 1) ≤ roundEven q := by exact_mod_cast not_le.1 hc
  have h2 := roundEven_nearest q n
  rw [abs_of_nonneg (by linarith : (0:ℚ) ≤ roundEven q - q), abs_of_nonneg (by linarith : (0:ℚ) ≤ n - q)] at h2
  linarith

theorem le_roundEven {q : ℚ} {n : Int} (h : (n : ℚ) ≤ q) : n ≤ roundEven q := by
  by_contra hc
  have h1 : (roundEven q : ℚ) + 1 ≤ n := by exact_mod_cast not_le.1 hc
  have h2 := roundEven_nearest q n
  rw [abs_of_nonpos (by linarith : (roundEven q - q : ℚ) ≤ 0), abs_of_nonpos (by linarith : (n - q : ℚ) ≤ 0)] at h2
  linarith

theorem roundEven_tie {q : ℚ} {n : Int} (hn : n ≠ roundEven q) (h : |(n : ℚ) - q| = |(roundEven q : ℚ) - q|) :
    roundEven q % 2 = 0 := by
  have h1 := roundEven_near q
  have h2 : (1 : ℚ) ≤ |(n : ℚ) - roundEven q| := by
    rw [← Int.cast_sub, ← Int.cast_abs]
    exact_mod_cast Int.one_le_abs (sub_ne_zero.2 hn)
  have h3 : |(n : ℚ) - roundEven q| ≤ |(n : ℚ) - q| + |(roundEven q : ℚ) - q| := by
    rw [abs_sub_comm (roundEven q : ℚ) q]
    exact abs_sub_le _ _ _
  have h4 : |(roundEven q : ℚ) - q| = 1 / 2 := by linarith
  have f1 := Int.floor_le q
  have f2 := Int.lt_floor_add_one q
  revert h4
  unfold roundEven
  simp only
  split_ifs with c1 c2 c3
  · intro h4
    rw [abs_of_nonpos (by linarith)] at h4
    linarith
  · intro h4
    push_cast at h4
    rw [abs_of_nonneg (by linarith)] at h4
    linarith
  · intro _; exact c3
  · intro _; omega

/-! ## Rounding to a format -/

namespace Fmt
variable (f : Fmt)

theorem pow_pos (e : Int) : (0 : ℚ) < 2 ^ e := zpow_pos (by norm_num) e

theorem rnd_near (q : ℚ) : |f.rnd q - q| ≤ 2 ^ f.ulpExp q / 2 := by
  have hp := pow_pos (f.ulpExp q)
  have h := roundEven_near (q / 2 ^ f.ulpExp q)
  have e : f.rnd q - q = (roundEven (q / 2 ^ f.ulpExp q) - q / 2 ^ f.ulpExp q) * 2 ^ f.ulpExp q := by
    unfold rnd; field_simp
  rw [e, abs_mul, abs_of_pos hp]
  nlinarith

theorem rnd_nonneg {q : ℚ} (h : 0 ≤ q) : 0 ≤ f.rnd q := by
  have hp := pow_pos (f.ulpExp q)
  have := roundEven_nonneg (div_nonneg h hp.le)
  have : (0 : ℚ) ≤ roundEven (q / 2 ^ f.ulpExp q) := by exact_mod_cast this
  exact mul_nonneg this hp.le

theorem rnd_zero : f.rnd 0 = 0 := by
  have : roundEven 0 = 0 := by exact_mod_cast roundEven_int 0
  simp [rnd, this]

theorem rnd_multiple (q : ℚ) (n : Int) : |f.rnd q - q| ≤ |n * 2 ^ f.ulpExp q - q| := by
  have hp := pow_pos (f.ulpExp q)
  have h := roundEven_nearest (q / 2 ^ f.ulpExp q) n
  have e : ∀ z : ℚ, z * 2 ^ f.ulpExp q - q = (z - q / 2 ^ f.ulpExp q) * 2 ^ f.ulpExp q := by
    intro z; field_simp
  unfold rnd
  rw [e, e, abs_mul, abs_mul]
  exact mul_le_mul_of_nonneg_right h (abs_nonneg _)

/-- Numbers of the size of `q` lie between these powers of two. -/
theorem lt_size {q : ℚ} (h : 0 ≤ q) : q < 2 ^ f.prec * 2 ^ f.ulpExp q := by
  have h1 := Int.lt_zpow_succ_log_self (b := 2) (by norm_num) q
  have h2 : Int.log 2 q + 1 ≤ f.prec + f.ulpExp q := by
    unfold ulpExp; have := le_max_right f.emin (Int.log 2 q - (f.prec - 1)); omega
  calc q < ((2 : ℕ) : ℚ) ^ (Int.log 2 q + 1) := h1
    _ ≤ 2 ^ ((f.prec : Int) + f.ulpExp q) := by
      push_cast
      exact zpow_le_zpow_right₀ (by norm_num) h2
    _ = _ := by rw [zpow_add₀ (by norm_num), zpow_natCast]

theorem size_le {q : ℚ} (h : 0 < q) (he : f.emin < f.ulpExp q) : 2 ^ ((f.prec : Int) - 1 + f.ulpExp q) ≤ q := by
  have h1 := Int.zpow_log_le_self (b := 2) (by norm_num) h
  have h2 : (f.prec : Int) - 1 + f.ulpExp q = Int.log 2 q := by
    unfold ulpExp at *; omega
  rw [h2]
  exact_mod_cast h1

/-- Numbers of the format that are large enough are multiples of a power of two. -/
theorem binary_multiple {p : Nat} {emin : Int} {x : ℚ} {e : Int} (hx : IsBinary p emin x) (h : 2 ^ ((p : Int) - 1 + e) ≤ |x| ∨ e ≤ emin) :
    ∃ n : Int, x = n * 2 ^ e := by
  obtain ⟨m, k, hm, hk, rfl⟩ := hx
  have hke : e ≤ k := by
    rcases h with h | h
    · by_contra hc
      have h1 : |(m : ℚ) * 2 ^ k| < 2 ^ p * 2 ^ k := by
        rw [abs_mul, abs_of_pos (pow_pos k)]
        have : |(m : ℚ)| < 2 ^ p := by exact_mod_cast hm
        exact mul_lt_mul_of_pos_right this (pow_pos k)
      have h2 : (2 : ℚ) ^ p * 2 ^ k ≤ 2 ^ ((p : Int) - 1 + e) := by
        rw [← zpow_natCast, ← zpow_add₀ (by norm_num)]
        exact zpow_le_zpow_right₀ (by norm_num) (by omega)
      linarith
    · omega
  refine ⟨m * 2 ^ (k - e).toNat, ?_⟩
  push_cast
  rw [mul_assoc, ← zpow_natCast, Int.toNat_of_nonneg (by omega), ← zpow_add₀ (by norm_num)]
  congr 2; omega

theorem rnd_binary {q : ℚ} (hp : 1 ≤ f.prec) (h : 0 ≤ q) : IsBinary f.prec f.emin (f.rnd q) := by
  have hn := roundEven_nonneg (div_nonneg h (pow_pos (f.ulpExp q)).le)
  have hle : roundEven (q / 2 ^ f.ulpExp q) ≤ 2 ^ f.prec := by
    apply roundEven_le
    rw [div_le_iff₀ (pow_pos _)]
    push_cast
    exact (f.lt_size h).le
  have he : f.emin ≤ f.ulpExp q := le_max_left _ _
  unfold rnd
  rcases hle.lt_or_eq with hlt | heq
  · exact ⟨_, f.ulpExp q, by rwa [abs_of_nonneg hn], he, rfl⟩
  · refine ⟨2 ^ (f.prec - 1), f.ulpExp q + 1, ?_, by omega, ?_⟩
    · rw [abs_of_nonneg (by positivity)]
      exact pow_lt_pow_right₀ (by norm_num) (by omega)
    · rw [heq, zpow_add₀ (by norm_num)]
      push_cast
      obtain ⟨k, hk⟩ := Nat.exists_eq_add_of_le' hp
      rw [hk, Nat.add_sub_cancel, pow_succ]
      ring

theorem rnd_nearest {q : ℚ} (hp : 1 ≤ f.prec) (h : 0 ≤ q) : Nearest (IsBinary f.prec f.emin) q (f.rnd q) := by
  refine ⟨f.rnd_binary hp h, ?_⟩
  intro z hz
  by_cases hs : 2 ^ ((f.prec : Int) - 1 + f.ulpExp q) ≤ |z| ∨ f.ulpExp q ≤ f.emin
  · obtain ⟨n, rfl⟩ := binary_multiple hz hs
    exact f.rnd_multiple q n
  · by_contra hne
    have hs1 : |z| < 2 ^ ((f.prec : Int) - 1 + f.ulpExp q) := not_le.1 fun h => hs (.inl h)
    have hs2 : f.emin < f.ulpExp q := not_le.1 fun h => hs (.inr h)
    have hq : 0 < q := by
      rcases h.lt_or_eq with h | h
      · exact h
      · subst h
        exact absurd (by rw [f.rnd_zero, sub_zero, abs_zero]; exact abs_nonneg _) hne
    have h1 := f.size_le hq hs2
    have h2 := f.rnd_multiple q (2 ^ (f.prec - 1))
    have e : ((2 ^ (f.prec - 1) : Int) : ℚ) * 2 ^ f.ulpExp q = 2 ^ ((f.prec : Int) - 1 + f.ulpExp q) := by
      push_cast
      rw [← zpow_natCast, ← zpow_add₀ (by norm_num)]
      congr 1; omega
    rw [e] at h2
    apply hne
    refine h2.trans ?_
    have h3 := le_abs_self z
    rw [abs_of_nonpos (by linarith), abs_of_nonpos (by linarith)]
    linarith

theorem rnd_self {q : ℚ} (hp : 1 ≤ f.prec) (h : 0 ≤ q) (hq : IsBinary f.prec f.emin q) : f.rnd q = q := by
  have h1 := (f.rnd_nearest hp h).2 q hq
  rw [sub_self, abs_zero] at h1
  exact sub_eq_zero.1 (abs_eq_zero.1 (le_antisymm h1 (abs_nonneg _)))

/-- Of two nearest numbers the one with an even significand is taken. -/
theorem rnd_tie {q z : ℚ} (hp : 2 ≤ f.prec) (h : 0 ≤ q) (hz : IsBinary f.prec f.emin z) (hne : z ≠ f.rnd q)
    (ht : |z - q| = |f.rnd q - q|) : IsBinary (f.prec - 1) (f.emin + 1) (f.rnd q) := by
  have hpow := pow_pos (f.ulpExp q)
  have hmul : ∃ n : Int, z = n * 2 ^ f.ulpExp q := by
    by_cases hs : 2 ^ ((f.prec : Int) - 1 + f.ulpExp q) ≤ |z| ∨ f.ulpExp q ≤ f.emin
    · exact binary_multiple hz hs
    · exfalso
      have hs1 : |z| < 2 ^ ((f.prec : Int) - 1 + f.ulpExp q) := not_le.1 fun h => hs (.inl h)
      have hs2 : f.emin < f.ulpExp q := not_le.1 fun h => hs (.inr h)
      rcases h.lt_or_eq with hq | hq
      · have h1 := f.size_le hq hs2
        have h2 := f.rnd_multiple q (2 ^ (f.prec - 1))
        have e : ((2 ^ (f.prec - 1) : Int) : ℚ) * 2 ^ f.ulpExp q = 2 ^ ((f.prec : Int) - 1 + f.ulpExp q) := by
          push_cast
          rw [← zpow_natCast, ← zpow_add₀ (by norm_num)]
          congr 1; omega
        rw [e, ← ht] at h2
        have h3 := le_abs_self z
        rw [abs_of_nonpos (by linarith), abs_of_nonpos (by linarith)] at h2
        linarith
      · subst hq
        rw [f.rnd_zero] at ht hne
        simp at ht
        exact hne ht
  obtain ⟨n, rfl⟩ := hmul
  have e : ∀ z : ℚ, z * 2 ^ f.ulpExp q - q = (z - q / 2 ^ f.ulpExp q) * 2 ^ f.ulpExp q := by
    intro z; field_simp
  set t := q / 2 ^ f.ulpExp q with htd
  have hr : f.rnd q = roundEven t * 2 ^ f.ulpExp q := rfl
  have hnn : n ≠ roundEven t := by rintro rfl; exact hne rfl
  rw [hr, e, e, abs_mul, abs_mul] at ht
  have ht' : |(n : ℚ) - t| = |(roundEven t : ℚ) - t| := mul_right_cancel₀ (by positivity) ht
  have hev := roundEven_tie hnn ht'
  have ht0 : 0 ≤ t := div_nonneg h hpow.le
  have hge := roundEven_nonneg ht0
  have hle : roundEven t ≤ 2 ^ f.prec := by
    apply roundEven_le
    rw [htd, div_le_iff₀ hpow]
    push_cast
    exact (f.lt_size h).le
  have he : f.emin ≤ f.ulpExp q := le_max_left _ _
  obtain ⟨k, hk⟩ : ∃ k : Int, roundEven t = 2 * k := ⟨roundEven t / 2, by omega⟩
  have hpp : (2 : Int) ^ f.prec = 2 * 2 ^ (f.prec - 1) := by
    obtain ⟨j, hj⟩ := Nat.exists_eq_add_of_le' hp
    rw [hj]; simp [pow_succ]; ring
  have hkle : k ≤ 2 ^ (f.prec - 1) := by omega
  rw [hr, hk]
  rcases hkle.lt_or_eq with hlt | heq
  · refine ⟨k, f.ulpExp q + 1, ?_, by omega, ?_⟩
    · rw [abs_of_nonneg (by omega)]; exact hlt
    · rw [zpow_add₀ (by norm_num)]; push_cast; ring
  · refine ⟨1, f.prec + f.ulpExp q, ?_, by omega, ?_⟩
    · rw [abs_one]; exact one_lt_pow₀ (by norm_num) (by omega)
    · rw [heq, ← hpp, zpow_add₀ (by norm_num)]; push_cast; rw [zpow_natCast]; ring

end Fmt

/-! ## Reading decimal numbers -/

theorem mantissa_scan {w : Str} {x : ℚ} (h : (∃ a, w = a ∧ x = decValue a ∧ IsDigits a) ∨ ∃ a b, w = a ++ 46 :: b ∧
    (∀ d ∈ a, 48 ≤ d.toNat ∧ d.toNat ≤ 57) ∧ (∀ d ∈ b, 48 ≤ d.toNat ∧ d.toNat ≤ 57) ∧ a ++ b ≠ [] ∧
    x = decValue (a ++ b) / 10 ^ b.length) {r : Str} (hr : ∀ c ∈ r.head?, ¬ (48 ≤ c.toNat ∧ c.toNat ≤ 57) ∧ c ≠ 46) :
    ∃ a b, scanPoint isDigitC (w ++ r) = (a, b, r) ∧ (a.isEmpty && b.isEmpty) = false ∧ x = digitsVal (a ++ b) / 10 ^ b.length := by
  have hr' : ∀ c ∈ r.head?, isDigitC c = false := by
    intro c hc
    have := (hr c hc).1
    rw [← isDigitC_iff] at this
    simpa using this
  rcases h with ⟨a, rfl, rfl, ha⟩ | ⟨a, b, rfl, ha, hb, hne, rfl⟩
  · have h1 : ∀ c ∈ w, isDigitC c = true := fun c hc => isDigitC_iff.2 (ha.2 c hc)
    refine ⟨w, [], ?_, ?_, ?_⟩
    · unfold scanPoint
      rw [dropWhile_append_stop h1 hr', takeWhile_append_stop h1 hr']
      rw [if_neg]
      intro h
      exact (hr 46 (by rw [h]; rfl)).2 rfl
    · have := ha.1
      cases w <;> simp_all
    · simp [digitsVal, decValue]
  · have h1 : ∀ c ∈ a, isDigitC c = true := fun c hc => isDigitC_iff.2 (ha c hc)
    have h2 : ∀ c ∈ b, isDigitC c = true := fun c hc => isDigitC_iff.2 (hb c hc)
    have h3 : ∀ c ∈ (46 :: (b ++ r)).head?, isDigitC c = false := by simp; decide
    refine ⟨a, b, ?_, ?_, ?_⟩
    · have e : (a ++ 46 :: b) ++ r = a ++ 46 :: (b ++ r) := by simp
      rw [e]
      unfold scanPoint
      rw [dropWhile_append_stop h1 h3, takeWhile_append_stop h1 h3]
      simp [dropWhile_append_stop h2 hr', takeWhile_append_stop h2 hr']
    · cases a <;> cases b <;> simp_all
    · simp [digitsVal, decValue]

theorem scanExp_none {letter : Byte} {r : Str} (h : ∀ c ∈ r.head?, c ≠ letter ∧ c ≠ letter - 32) : scanExp letter r = (0, r) := by
  unfold scanExp
  rw [if_neg]
  rintro (h1 | h1)
  · exact (h letter (by rw [h1]; rfl)).1 rfl
  · exact (h (letter - 32) (by rw [h1]; rfl)).2 rfl

theorem Decimal.mantissa {w : Str} {x : ℚ} (h : Decimal w x) (he : c!"e" ∉ w) (hE : c!"E" ∉ w) :
    (∃ a, w = a ∧ x = decValue a ∧ IsDigits a) ∨ ∃ a b, w = a ++ 46 :: b ∧
      (∀ d ∈ a, 48 ≤ d.toNat ∧ d.toNat ≤ 57) ∧ (∀ d ∈ b, 48 ≤ d.toNat ∧ d.toNat ≤ 57) ∧ a ++ b ≠ [] ∧
      x = decValue (a ++ b) / 10 ^ b.length := by
  cases h with
  | int ha => exact .inl ⟨_, rfl, rfl, ha⟩
  | point ha hb hne => exact .inr ⟨_, _, rfl, ha, hb, hne, rfl⟩
  | exp _ _ _ hc _ => rcases hc with rfl | rfl <;> simp_all

theorem digit_ne_e {c : Byte} (h : 48 ≤ c.toNat ∧ c.toNat ≤ 57) : c ≠ c!"e" ∧ c ≠ c!"E" ∧ c ≠ 46 ∧ c ≠ c!"x" ∧ c ≠ c!"X" := by
  refine ⟨?_, ?_, ?_, ?_, ?_⟩ <;> rintro rfl <;> revert h <;> decide

theorem mantissa_no_exp {w : Str} {x : ℚ} (h : (∃ a, w = a ∧ x = decValue a ∧ IsDigits a) ∨ ∃ a b, w = a ++ 46 :: b ∧
    (∀ d ∈ a, 48 ≤ d.toNat ∧ d.toNat ≤ 57) ∧ (∀ d ∈ b, 48 ≤ d.toNat ∧ d.toNat ≤ 57) ∧ a ++ b ≠ [] ∧
    x = decValue (a ++ b) / 10 ^ b.length) : ∀ c ∈ w, (48 ≤ c.toNat ∧ c.toNat ≤ 57) ∨ c = 46 := by
  rcases h with ⟨a, rfl, rfl, ha⟩ | ⟨a, b, rfl, ha, hb, hne, rfl⟩
  · exact fun c hc => .inl (ha.2 c hc)
  · intro c hc
    rcases List.mem_append.1 hc with h | h
    · exact .inl (ha c h)
    · rcases List.mem_cons.1 h with h | h
      · exact .inr h
      · exact .inl (hb c h)

theorem scanDecimal_decimal {w rest : Str} {x : ℚ} (h : Decimal w x) (hr : Ends rest) : scanDecimal (w ++ rest) = some (x, rest) := by
  have hd : ∀ c ∈ rest.head?, ¬ (48 ≤ c.toNat ∧ c.toNat ≤ 57) ∧ c ≠ 46 := by
    intro c hc
    refine ⟨(hr c hc).1, ?_⟩
    rintro rfl
    exact (hr 46 hc).2 (by decide)
  have hE : ∀ c ∈ rest.head?, c ≠ (101 : Byte) ∧ c ≠ (101 : Byte) - 32 := by
    intro c hc
    constructor <;> rintro rfl <;> exact (hr _ hc).2 (by decide)
  have plain : ∀ {w : Str} {x : ℚ}, ((∃ a, w = a ∧ x = decValue a ∧ IsDigits a) ∨ ∃ a b, w = a ++ 46 :: b ∧
      (∀ d ∈ a, 48 ≤ d.toNat ∧ d.toNat ≤ 57) ∧ (∀ d ∈ b, 48 ≤ d.toNat ∧ d.toNat ≤ 57) ∧ a ++ b ≠ [] ∧
      x = decValue (a ++ b) / 10 ^ b.length) → scanDecimal (w ++ rest) = some (x, rest) := by
    intro w x hm
    obtain ⟨a, b, h1, h2, h3⟩ := mantissa_scan hm hd
    unfold scanDecimal
    rw [h1]
    simp only [h2, scanExp_none hE, h3]
    simp [zpow_neg, div_eq_mul_inv]
  cases h with
  | int ha => exact plain (.inl ⟨_, rfl, rfl, ha⟩)
  | point ha hb hne => exact plain (.inr ⟨_, _, rfl, ha, hb, hne, rfl⟩)
  | exp hw he hE' hc hn =>
    rename_i w x e n k
    have hm := Decimal.mantissa hw he hE'
    have hr2 : ∀ c ∈ (e :: n ++ rest).head?, ¬ (48 ≤ c.toNat ∧ c.toNat ≤ 57) ∧ c ≠ 46 := by
      rcases hc with rfl | rfl <;> simp <;> decide
    obtain ⟨a, b, h1, h2, h3⟩ := mantissa_scan hm hr2
    obtain ⟨m, neg, h4, h5, _⟩ := scanNumber_numeral hn fun c hc => (hd c hc).1
    have h6 : scanExp 101 (e :: n ++ rest) = (k, rest) := by
      unfold scanExp
      rw [if_pos]
      · simp only [List.cons_append, List.tail_cons, h4, h5]
      · rcases hc with rfl | rfl
        · left; rfl
        · right; rfl
    unfold scanDecimal
    rw [List.append_assoc, h1]
    simp only [h2, h6, h3]
    rw [zpow_sub₀ (by norm_num), zpow_natCast]
    simp
    ring

theorem decimal_chars {w : Str} {x : ℚ} (h : Decimal w x) :
    (∃ c cs, w = c :: cs ∧ ((48 ≤ c.toNat ∧ c.toNat ≤ 57) ∨ c = 46)) ∧
      ∀ c ∈ w, (48 ≤ c.toNat ∧ c.toNat ≤ 57) ∨ c ∈ b!".eE+-" := by
  induction h with
  | int ha =>
    rename_i a
    have := ha.1
    cases a with
    | nil => simp at this
    | cons c cs => exact ⟨⟨c, cs, rfl, .inl (ha.2 c (by simp))⟩, fun d hd => .inl (ha.2 d hd)⟩
  | point ha hb hne =>
    rename_i a b
    constructor
    · cases a with
      | nil => exact ⟨46, b, rfl, .inr rfl⟩
      | cons c cs => exact ⟨c, _, rfl, .inl (ha c (by simp))⟩
    · intro c hc
      rcases List.mem_append.1 hc with h | h
      · exact .inl (ha c h)
      · rcases List.mem_cons.1 h with rfl | h
        · exact .inr (by decide)
        · exact .inl (hb c h)
  | exp hw he hE hc hn ih =>
    rename_i w x e n k
    obtain ⟨⟨c, cs, rfl, h1⟩, h2⟩ := ih
    refine ⟨⟨c, _, rfl, h1⟩, ?_⟩
    intro d hd
    rcases List.mem_append.1 hd with h | h
    · exact h2 d h
    · rcases List.mem_cons.1 h with h | h
      · right; rw [h]; rcases hc with rfl | rfl <;> decide
      · rcases (Numeral.chars hn).2 d h with ⟨_, rfl | rfl | h⟩
        · right; decide
        · right; decide
        · exact .inl h

theorem strtod_scan (f : Fmt) {ws sign w rest r : Str} {x y : ℚ} (hws : ∀ c ∈ ws, IsSpace c)
    (hs : sign = [] ∨ sign = [43] ∨ sign = [45]) (h : Decimal w y) (hr : ∀ c ∈ rest.head?, c ≠ c!"x" ∧ c ≠ c!"X")
    (hsd : scanDecimal (w ++ rest) = some (x, r)) : strtod f (ws ++ sign ++ w ++ rest) =
      some ((f.convert (sign == [45]) x).1, (f.convert (sign == [45]) x).2, r) := by
  obtain ⟨⟨c, cs, hw, hc⟩, hch⟩ := decimal_chars h
  have hcs : isSpaceC c = false ∧ c ≠ 43 ∧ c ≠ 45 ∧ lowerC c ≠ c!"i" ∧ lowerC c ≠ c!"n" := by
    have key : ∀ c : Byte, ((48 ≤ c.toNat ∧ c.toNat ≤ 57) ∨ c = 46) →
        (isSpaceC c = false ∧ c ≠ 43 ∧ c ≠ 45 ∧ lowerC c ≠ c!"i" ∧ lowerC c ≠ c!"n") := by
      intro c
      have e : c = UInt8.ofNat c.toNat := by simp
      have hlt := c.toNat_lt
      generalize c.toNat = n at e hlt
      subst e
      revert n
      decide +kernel
    exact key c hc
  have e1 : (ws ++ sign ++ w ++ rest).dropWhile isSpaceC = sign ++ w ++ rest := by
    rw [List.append_assoc, List.append_assoc, dropWhile_append_stop, ← List.append_assoc]
    · intro d hd; exact streamSpace_iff.2 (hws d hd)
    · rcases hs with rfl | rfl | rfl
      · simp [hw, hcs.1]
      · simp; decide
      · simp; decide
  have hx : hasWord b!"0x" (w ++ rest) = false := by
    have key : ∀ c : Byte, lowerC c = 120 → c = c!"x" ∨ c = c!"X" := by
      intro c
      have e : c = UInt8.ofNat c.toNat := by simp
      have hlt := c.toNat_lt
      generalize c.toNat = n at e hlt
      subst e
      revert n
      decide +kernel
    rw [hw]
    cases cs with
    | nil =>
      cases rest with
      | nil => simp [hasWord]
      | cons d ds =>
        have hd := hr d rfl
        have : lowerC d ≠ 120 := by
          intro h
          rcases key d h with rfl | rfl
          · exact hd.1 rfl
          · exact hd.2 rfl
        simp [hasWord, this]
    | cons d ds =>
      have hd := hch d (by simp [hw])
      have : lowerC d ≠ 120 := by
        intro h
        rcases key d h with rfl | rfl <;> revert hd <;> decide
      simp [hasWord, this]
  have hi : ∀ v : Str, (v.head? = some c!"i" ∨ v.head? = some c!"n") → hasWord v (w ++ rest) = false := by
    intro v hv
    rw [hw]
    cases v with
    | nil => simp at hv
    | cons y ys =>
      have : lowerC c ≠ y := by
        rcases hv with hv | hv
        · simp at hv; rw [hv]; exact hcs.2.2.2.1
        · simp at hv; rw [hv]; exact hcs.2.2.2.2
      simp [hasWord, this]
  have h1 := hi b!"infinity" (.inl (by decide))
  have h2 := hi b!"inf" (.inl (by decide))
  have h3 := hi b!"nan" (.inr (by decide))
  unfold strtod
  rw [e1]
  rcases hs with rfl | rfl | rfl
  · have hh : (w ++ rest : Str).head? = some c := by simp [hw]
    have h43 : ¬ (some c = some (45 : Byte) ∨ some c = some (43 : Byte)) := by simp [hcs.2.1, hcs.2.2.1]
    simp only [List.nil_append, hh, if_neg h43, h1, h2, h3, hx, hsd, Bool.false_eq_true, if_false]
    have : (some c == some (45 : Byte)) = false := by simp [hcs.2.2.1]
    rw [this]
    rfl
  · simp [h1, h2, h3, hx, hsd]
  · simp [h1, h2, h3, hx, hsd]

theorem strtod_decimal (f : Fmt) {ws sign w rest : Str} {x : ℚ} (hws : ∀ c ∈ ws, IsSpace c)
    (hs : sign = [] ∨ sign = [43] ∨ sign = [45]) (h : Decimal w x) (hr : Ends rest) :
    strtod f (ws ++ sign ++ w ++ rest) =
      some ((f.convert (sign == [45]) x).1, (f.convert (sign == [45]) x).2, rest) := by
  refine strtod_scan f hws hs h (fun c hc => ?_) (scanDecimal_decimal h hr)
  constructor <;> rintro rfl <;> exact (hr _ hc).2 (by decide)

theorem decimal_nonneg {w : Str} {x : ℚ} (h : Decimal w x) : 0 ≤ x := by
  induction h with
  | int _ => positivity
  | point _ _ _ => positivity
  | exp _ _ _ _ _ ih => positivity

theorem cstr_append {a b : Str} (h : ∀ c ∈ a, c ≠ 0) : cstr (a ++ b) = a ++ cstr b := by
  unfold cstr
  exact List.takeWhile_append_of_pos (by simpa using h)

theorem space_ne_zero {c : Byte} (h : IsSpace c) : c ≠ 0 := by
  rintro rfl
  revert h
  unfold IsSpace
  decide

theorem cstr_decimal {ws sign w : Str} {x : ℚ} (hws : ∀ c ∈ ws, IsSpace c) (hs : sign = [] ∨ sign = [43] ∨ sign = [45])
    (h : Decimal w x) (rest : Str) : cstr (ws ++ sign ++ w ++ rest) = ws ++ sign ++ w ++ cstr rest := by
  apply cstr_append
  intro c hc
  rcases List.mem_append.1 hc with hc | hc
  · rcases List.mem_append.1 hc with hc | hc
    · exact space_ne_zero (hws c hc)
    · rcases hs with rfl | rfl | rfl
      · simp at hc
      · simp at hc; rw [hc]; decide
      · simp at hc; rw [hc]; decide
  · rintro rfl
    have := (decimal_chars h).2 0 hc
    revert this; decide

theorem ends_cstr {rest : Str} (h : Ends rest) : Ends (cstr rest) := by
  intro c hc
  cases rest with
  | nil => simp [cstr] at hc
  | cons d ds =>
    by_cases hd : d = 0
    · simp [cstr, hd] at hc
    · simp [cstr, hd] at hc
      exact h c (by simp [hc])

theorem scanDecimal_none (p : Str) : scanDecimal p = none ↔
    ¬ ((∃ c cs, p = c :: cs ∧ 48 ≤ c.toNat ∧ c.toNat ≤ 57) ∨ ∃ c cs, p = c!"." :: c :: cs ∧ 48 ≤ c.toNat ∧ c.toNat ≤ 57) := by
  have h : scanDecimal p = none ↔ (scanPoint isDigitC p).1 = [] ∧ (scanPoint isDigitC p).2.1 = [] := by
    unfold scanDecimal
    split
    rename_i a b r e
    rw [e]
    cases a <;> cases b <;> simp
  rw [h]
  cases p with
  | nil => simp [scanPoint]
  | cons c cs =>
    by_cases hc : isDigitC c = true
    · have := isDigitC_iff.1 hc
      unfold scanPoint
      simp only [List.takeWhile_cons, hc, if_true]
      constructor
      · split <;> simp
      · intro hn; exact absurd (.inl ⟨c, cs, rfl, this⟩) hn
    · have hc' : isDigitC c = false := by simpa using hc
      have hn : ¬ ∃ c' cs', c :: cs = c' :: cs' ∧ 48 ≤ UInt8.toNat c' ∧ UInt8.toNat c' ≤ 57 := by
        rintro ⟨c', cs', e, h⟩
        injection e with e _
        subst e
        exact hc (isDigitC_iff.2 h)
      unfold scanPoint
      simp only [List.takeWhile_cons, List.dropWhile_cons, hc', Bool.false_eq_true, if_false, List.head?_cons, Option.some.injEq,
        List.tail_cons, hn, false_or]
      by_cases h46 : c = 46
      · subst h46
        simp only [if_true, true_and]
        cases cs with
        | nil => simp
        | cons d ds =>
          by_cases hd : isDigitC d = true
          · have := isDigitC_iff.1 hd
            simp [hd, this]
          · have hd' := hd
            rw [isDigitC_iff] at hd'
            simp only [List.takeWhile_cons, hd, Bool.false_eq_true, if_false, true_iff]
            rintro ⟨c', cs', e, h⟩
            injection e with _ e
            injection e with e _
            subst e
            exact hd' h
      · simp only [if_neg h46, true_and, true_iff]
        rintro ⟨c', cs', e, h⟩
        injection e with e _
        exact h46 e

theorem hasWord_three (x y z : Byte) (p : Str) :
    hasWord [x, y, z] p = true ↔ ∃ a b c cs, p = a :: b :: c :: cs ∧ lowerC a = x ∧ lowerC b = y ∧ lowerC c = z := by
  rcases p with _ | ⟨a, _ | ⟨b, _ | ⟨c, cs⟩⟩⟩ <;> simp [hasWord]

theorem hasWord_infinity {p : Str} (h : hasWord b!"infinity" p = true) : hasWord b!"inf" p = true := by
  simp only [hasWord, beq_iff_eq] at h ⊢
  have e : (p.take 3).map lowerC = ((p.take 8).map lowerC).take 3 := by
    rw [← List.map_take, List.take_take]; rfl
  have h' : (p.take 8).map lowerC = b!"infinity" := h
  show (p.take 3).map lowerC = b!"inf"
  rw [e, h']; decide

theorem lower_iff (c : Byte) : (lowerC c = c!"i" ↔ c ∈ b!"iI") ∧ (lowerC c = c!"n" ↔ c ∈ b!"nN") ∧ (lowerC c = c!"f" ↔ c ∈ b!"fF") ∧
    (lowerC c = c!"a" ↔ c ∈ b!"aA") ∧ (lowerC c = c!"0" → c = c!"0") := by
  have e : c = UInt8.ofNat c.toNat := by simp
  have hlt := c.toNat_lt
  generalize c.toNat = n at e hlt
  subst e
  revert n
  decide +kernel

theorem strtod_none (f : Fmt) {ws sign p : Str} (hws : ∀ c ∈ ws, IsSpace c) (hs : sign = [] ∨ sign = [43] ∨ sign = [45])
    (hp : sign = [] → ∀ c ∈ p.head?, ¬ IsSpace c ∧ c ∉ b!"+-") : strtod f (ws ++ sign ++ p) = none ↔ ¬ NumberStart p := by
  have e1 : (ws ++ sign ++ p).dropWhile isSpaceC = sign ++ p := by
    rw [List.append_assoc, dropWhile_append_stop]
    · intro d hd; exact streamSpace_iff.2 (hws d hd)
    · rcases hs with rfl | rfl | rfl
      · intro c hc
        have := (hp rfl c hc).1
        rw [← streamSpace_iff] at this
        simpa using this
      · simp; decide
      · simp; decide
  have core : ∀ neg : Bool, (if hasWord b!"infinity" p then some (Flt.inf neg, false, p.drop 8)
      else if hasWord b!"inf" p then some (.inf neg, false, p.drop 3)
      else if hasWord b!"nan" p then some (.nan neg, false, skipNanText (p.drop 3))
      else match (if hasWord b!"0x" p then scanHex (p.drop 2) else none).orElse fun _ => scanDecimal p with
        | none => none
        | some (q, r) => some ((f.convert neg q).1, (f.convert neg q).2, r)) = none ↔ ¬ NumberStart p := by
    intro neg
    have hw : (hasWord b!"inf" p = true ∨ hasWord b!"nan" p = true) ↔
        ∃ a b c cs, p = a :: b :: c :: cs ∧
          ((a ∈ b!"iI" ∧ b ∈ b!"nN" ∧ c ∈ b!"fF") ∨ (a ∈ b!"nN" ∧ b ∈ b!"aA" ∧ c ∈ b!"nN")) := by
      rw [hasWord_three, hasWord_three]
      constructor
      · rintro (⟨a, b, c, cs, rfl, h1, h2, h3⟩ | ⟨a, b, c, cs, rfl, h1, h2, h3⟩)
        · exact ⟨a, b, c, cs, rfl, .inl ⟨(lower_iff a).1.1 h1, (lower_iff b).2.1.1 h2, (lower_iff c).2.2.1.1 h3⟩⟩
        · exact ⟨a, b, c, cs, rfl, .inr ⟨(lower_iff a).2.1.1 h1, (lower_iff b).2.2.2.1.1 h2, (lower_iff c).2.1.1 h3⟩⟩
      · rintro ⟨a, b, c, cs, rfl, ⟨h1, h2, h3⟩ | ⟨h1, h2, h3⟩⟩
        · exact .inl ⟨a, b, c, cs, rfl, (lower_iff a).1.2 h1, (lower_iff b).2.1.2 h2, (lower_iff c).2.2.1.2 h3⟩
        · exact .inr ⟨a, b, c, cs, rfl, (lower_iff a).2.1.2 h1, (lower_iff b).2.2.2.1.2 h2, (lower_iff c).2.1.2 h3⟩
    have hd := scanDecimal_none p
    unfold NumberStart
    rw [← or_assoc, not_or, ← hd, ← hw, not_or]
    by_cases hi : hasWord b!"inf" p = true
    · by_cases hin : hasWord b!"infinity" p = true
      · simp [hi, hin]
      · simp [hi, hin]
    · have hin : ¬ hasWord b!"infinity" p = true := fun h => hi (hasWord_infinity h)
      by_cases hn : hasWord b!"nan" p = true
      · simp [hi, hin, hn]
      · simp only [hi, hin, hn, Bool.false_eq_true, if_false, not_false_eq_true, and_true]
        by_cases hx : hasWord b!"0x" p = true
        · have hdig : scanDecimal p ≠ none := by
            rw [Ne, hd, not_not]
            left
            rcases p with _ | ⟨c, cs⟩
            · simp [hasWord] at hx
            · refine ⟨c, cs, rfl, ?_⟩
              have : lowerC c = c!"0" := by
                cases cs <;> simp [hasWord] at hx
                exact hx.1
              rw [(lower_iff c).2.2.2.2 this]; decide
          cases hsd : scanDecimal p with
          | none => exact absurd hsd hdig
          | some v => cases scanHex (p.drop 2) <;> simp [hx]
        · cases hsd : scanDecimal p <;> simp [hx]
  unfold strtod
  rw [e1]
  rcases hs with rfl | rfl | rfl
  · have h43 : ¬ (([] ++ p : Str).head? = some (45 : Byte) ∨ ([] ++ p : Str).head? = some (43 : Byte)) := by
      rintro (h | h)
      · exact (hp rfl 45 h).2 (by decide)
      · exact (hp rfl 43 h).2 (by decide)
    simp only [if_neg h43]
    exact core _
  · exact core _
  · exact core _

/-! ## Writing six decimals -/

theorem decFold (b : Str) : ∀ v : Nat, b.foldl (fun a d => a * 10 + (d.toNat - 48)) v = v * 10 ^ b.length + decValue b := by
  induction b with
  | nil => intro v; simp [decValue]
  | cons c b ih =>
    intro v
    have h : decValue (c :: b) = b.foldl (fun a d => a * 10 + (d.toNat - 48)) (c.toNat - 48) := by simp [decValue]
    rw [h, ih, List.foldl_cons, ih, List.length_cons, pow_succ]
    ring

theorem decValue_append' (a b : Str) : decValue (a ++ b) = decValue a * 10 ^ b.length + decValue b := by
  rw [decValue_append, decFold]

theorem decValue_zeros (k : Nat) : decValue (List.replicate k 48) = 0 := by
  induction k with
  | zero => rfl
  | succ k ih => rw [List.replicate_succ', decValue_append', ih]; rfl

theorem natStrF_length (fuel : Nat) : ∀ (n j : Nat), 1 ≤ j → n < 10 ^ j → (natStrF fuel n).length ≤ j := by
  induction fuel with
  | zero => intro n j _ _; simp [natStrF]
  | succ fuel ih =>
    intro n j hj h
    unfold natStrF
    split
    · simpa using hj
    · rename_i hn
      have hj2 : 2 ≤ j := by
        by_contra hc
        have : j = 1 := by omega
        subst this
        omega
      obtain ⟨k, rfl⟩ := Nat.exists_eq_add_of_le' hj2
      have := ih (n / 10) (k + 1) (by omega) (by rw [pow_succ] at h; omega)
      simp
      omega

theorem pad6_spec {n : Nat} (h : n < 1000000) :
    (pad6 n).length = 6 ∧ decValue (pad6 n) = n ∧ ∀ d ∈ pad6 n, 48 ≤ d.toNat ∧ d.toNat ≤ 57 := by
  have hl : (natStr n).length ≤ 6 := natStrF_length _ n 6 (by omega) (by simpa using h)
  obtain ⟨h1, h2⟩ := natStr_digits n
  refine ⟨?_, ?_, ?_⟩
  · simp [pad6]; omega
  · rw [pad6, decValue_append', decValue_zeros, h2]; omega
  · intro d hd
    rcases List.mem_append.1 hd with h | h
    · rw [(List.mem_replicate.1 h).2]; decide
    · exact h1.2 d h

theorem fixed6_decimal (n : Nat) : Decimal (natStr (n / 1000000) ++ 46 :: pad6 (n % 1000000)) (n / 1000000) := by
  obtain ⟨h1, h2⟩ := natStr_digits (n / 1000000)
  obtain ⟨h3, h4, h5⟩ := pad6_spec (n := n % 1000000) (Nat.mod_lt _ (by norm_num))
  have := Decimal.point h1.2 h5 (by simp [h1.1])
  rw [decValue_append', h2, h4, h3] at this
  have e : n / 1000000 * 10 ^ 6 + n % 1000000 = n := by omega
  rw [e] at this
  convert this using 2
  norm_num

/-! ## There and back -/

/-- The value of the printed text. -/
def round6 (m : ℚ) : ℚ := (roundEven (m * 1000000)).toNat / 1000000

theorem round6_eq {m : ℚ} (h : 0 ≤ m) : round6 m = roundEven (m * 1000000) / 1000000 := by
  unfold round6
  have h1 := roundEven_nonneg (q := m * 1000000) (by positivity)
  have : (((roundEven (m * 1000000)).toNat : Int) : ℚ) = roundEven (m * 1000000) := by rw [Int.toNat_of_nonneg h1]
  rw [← this, Int.cast_natCast]

theorem round6_near {m : ℚ} (h : 0 ≤ m) : |round6 m - m| ≤ 1 / 2000000 := by
  rw [round6_eq h]
  have h1 := roundEven_near (m * 1000000)
  rw [abs_le] at *
  constructor <;> linarith [h1.1, h1.2]

theorem round6_nonneg (m : ℚ) : 0 ≤ round6 m := by unfold round6; positivity

theorem round6_int (n : Nat) : round6 n = n := by
  rw [round6_eq (by positivity)]
  have : (n : ℚ) * 1000000 = ((n * 1000000 : Int) : ℚ) := by push_cast; ring
  rw [this, roundEven_int]
  push_cast; field_simp

/-- A value close enough to a printed one prints the same. -/
theorem round6_of_near {y : ℚ} {n : Nat} (hy : 0 ≤ y) (h : |y - n / 1000000| < 1 / 2000000) : round6 y = n / 1000000 := by
  rw [round6_eq hy]
  have h1 := roundEven_near (y * 1000000)
  rw [abs_le] at h1
  rw [abs_lt] at h
  have h2 : roundEven (y * 1000000) < (n : Int) + 1 := by
    have : (roundEven (y * 1000000) : ℚ) < (n : ℚ) + 1 := by linarith [h1.2, h.2]
    exact_mod_cast this
  have h3 : (n : Int) - 1 < roundEven (y * 1000000) := by
    have : (n : ℚ) - 1 < (roundEven (y * 1000000) : ℚ) := by linarith [h1.1, h.1]
    exact_mod_cast this
  have : roundEven (y * 1000000) = (n : Int) := by omega
  rw [this, Int.cast_natCast]

namespace Fmt

theorem rnd_keep (f : Fmt) {x q : ℚ} (hp : 1 ≤ f.prec) (hx : IsBinary f.prec f.emin x) (h0 : 0 ≤ q)
    (hq : |q - x| ≤ 1 / 2000000) (h : 2 ^ ((f.prec : Int) - 20) < x) : f.rnd q = x := by
  have hn := f.rnd_nearest hp h0
  have h1 := hn.2 x hx
  rw [abs_sub_comm x q] at h1
  have hu : (2 : ℚ) ^ (-19 : Int) = 1 / 524288 := by norm_num
  have hB : (2 : ℚ) ^ ((f.prec : Int) - 20) = ((2 ^ (f.prec - 1) : Int) : ℚ) * (1 / 524288) := by
    push_cast
    rw [← hu, ← zpow_natCast, ← zpow_add₀ (by norm_num)]
    congr 1; omega
  have hB' : (2 : ℚ) ^ ((f.prec : Int) - 1 + -19) = 2 ^ ((f.prec : Int) - 20) := by congr 1; omega
  have hpos := pow_pos ((f.prec : Int) - 20)
  obtain ⟨n, hn1⟩ := binary_multiple (e := -19) hx (.inl (by rw [hB', abs_of_pos (by linarith)]; exact h.le))
  rw [hu] at hn1
  have hge : (2 : ℚ) ^ ((f.prec : Int) - 20) + 1 / 524288 ≤ x := by
    rw [hB, hn1] at h ⊢
    have h2 : (2 ^ (f.prec - 1) : Int) < n := by
      have := lt_of_mul_lt_mul_right h (by norm_num)
      exact_mod_cast this
    have h3 : ((2 ^ (f.prec - 1) : Int) : ℚ) + 1 ≤ n := by exact_mod_cast h2
    linarith
  have hyx : |f.rnd q - x| ≤ 1 / 1000000 := by
    have := abs_sub_le (f.rnd q) q x
    linarith
  rw [abs_le] at hyx
  have hy : 2 ^ ((f.prec : Int) - 20) ≤ f.rnd q := by linarith [hyx.1]
  obtain ⟨k, hk⟩ := binary_multiple (e := -19) hn.1 (.inl (by rw [hB', abs_of_pos (by linarith)]; exact hy))
  rw [hu] at hk
  rw [hk, hn1] at hyx ⊢
  have h4 : k < n + 1 := by
    have : (k : ℚ) < n + 1 := by linarith [hyx.2]
    exact_mod_cast this
  have h5 : n - 1 < k := by
    have : (n : ℚ) - 1 < k := by linarith [hyx.1]
    exact_mod_cast this
  have : k = n := by omega
  rw [this]

/-- Up to this size there are enough bits for six decimals. -/
theorem rnd_fine (f : Fmt) {q : ℚ} (he : f.emin ≤ -20) (h0 : 0 < q) (h : q < 2 ^ ((f.prec : Int) - 20)) :
    |f.rnd q - q| ≤ 1 / 2097152 := by
  have h1 := f.rnd_near q
  have h2 : f.ulpExp q ≤ -20 := by
    have h3 : Int.log 2 q < (f.prec : Int) - 20 := (Int.lt_zpow_iff_log_lt (b := 2) (by norm_num) h0).1 (by exact_mod_cast h)
    unfold ulpExp
    omega
  have h3 : (2 : ℚ) ^ f.ulpExp q ≤ 2 ^ (-20 : Int) := zpow_le_zpow_right₀ (by norm_num) h2
  have h4 : (2 : ℚ) ^ (-20 : Int) = 1 / 1048576 := by norm_num
  rw [h4] at h3
  calc _ ≤ _ := h1
    _ ≤ 1 / 1048576 / 2 := by gcongr
    _ = _ := by norm_num

end Fmt

/-- What is used of the two formats. -/
structure Fmt.Usual (f : Fmt) : Prop where
  prec : 20 ≤ f.prec
  emin : f.emin + (f.prec - 1) ≤ -20
  emax : -19 ≤ f.emax

theorem usual {f : Fmt} (h : f = .double ∨ f = .single) : f.Usual := by
  rcases h with rfl | rfl <;> exact ⟨by decide, by decide, by decide⟩

namespace Fmt.Usual
variable {f : Fmt} (hf : f.Usual)
include hf

theorem bound : (2 : ℚ) ^ ((f.prec : Int) - 20) = ((2 ^ (f.prec - 20) : ℕ) : ℚ) := by
  push_cast
  rw [← zpow_natCast]; congr 1; have := hf.prec; omega

theorem bound_binary : IsBinary f.prec f.emin (2 ^ ((f.prec : Int) - 20)) := by
  have h1 := hf.prec
  have h2 := hf.emin
  refine ⟨2 ^ (f.prec - 1), -19, ?_, by omega, ?_⟩
  · rw [abs_of_nonneg (by positivity)]
    exact pow_lt_pow_right₀ (by norm_num) (by omega)
  · push_cast
    rw [← zpow_natCast, ← zpow_add₀ (by norm_num)]
    congr 1; omega

theorem split (m : ℚ) (h0 : 0 ≤ m) (hm : IsBinary f.prec f.emin m) :
    f.rnd (round6 m) = m ∨ round6 m ≤ 2 ^ ((f.prec : Int) - 20) := by
  have hp : 1 ≤ f.prec := by have := hf.prec; omega
  rcases lt_or_ge (2 ^ ((f.prec : Int) - 20)) m with h | h
  · left
    exact f.rnd_keep hp hm (round6_nonneg m) (round6_near h0) h
  · right
    rw [hf.bound] at *
    rw [round6_eq h0, div_le_iff₀ (by norm_num)]
    have h1 : roundEven (m * 1000000) ≤ ((2 ^ (f.prec - 20) : ℕ) : Int) * 1000000 := by
      apply roundEven_le
      push_cast
      push_cast at h
      linarith
    exact_mod_cast h1

/-- Printing what was read gives the same text. -/
theorem stable (m : ℚ) (h0 : 0 ≤ m) (hm : IsBinary f.prec f.emin m) : round6 (f.rnd (round6 m)) = round6 m := by
  have hp : 1 ≤ f.prec := by have := hf.prec; omega
  rcases hf.split m h0 hm with h | h
  · rw [h]
  · have hnn := round6_nonneg m
    have he : f.emin ≤ -20 := by have := hf.emin; have := hf.prec; omega
    have key : |f.rnd (round6 m) - round6 m| < 1 / 2000000 := by
      rcases h.lt_or_eq with h | h
      · rcases hnn.lt_or_eq with h1 | h1
        · exact (f.rnd_fine he h1 h).trans_lt (by norm_num)
        · rw [← h1, f.rnd_zero]; norm_num
      · rw [h, f.rnd_self hp (Fmt.pow_pos _).le hf.bound_binary]; norm_num
    exact round6_of_near (f.rnd_nonneg hnn) key

theorem in_range (m : ℚ) (h0 : 0 ≤ m) (hm : IsBinary f.prec f.emin m) (hmax : m ≤ f.maxVal) : f.rnd (round6 m) ≤ f.maxVal := by
  have hp : 1 ≤ f.prec := by have := hf.prec; omega
  rcases hf.split m h0 hm with h | h
  · rw [h]; exact hmax
  · have h1 : f.rnd (round6 m) ≤ 2 ^ ((f.prec : Int) - 20) := by
      by_contra hc
      have h2 := (f.rnd_nearest hp (round6_nonneg m)).2 _ hf.bound_binary
      rw [abs_of_nonneg (by linarith), abs_of_nonneg (by linarith)] at h2
      linarith
    refine h1.trans ?_
    have h3 : (2 : ℚ) ^ (-19 : Int) ≤ 2 ^ f.emax := zpow_le_zpow_right₀ (by norm_num) hf.emax
    have h4 : (2 : ℚ) ^ (f.prec - 1) ≤ 2 ^ f.prec - 1 := by
      obtain ⟨k, hk⟩ := Nat.exists_eq_add_of_le' hp
      rw [hk, Nat.add_sub_cancel, pow_succ]
      have : (1 : ℚ) ≤ 2 ^ k := one_le_pow₀ (by norm_num)
      linarith
    have h5 : (2 : ℚ) ^ ((f.prec : Int) - 20) = 2 ^ (f.prec - 1) * 2 ^ (-19 : Int) := by
      rw [← zpow_natCast, ← zpow_add₀ (by norm_num)]
      congr 1; omega
    rw [h5]
    unfold Fmt.maxVal
    exact mul_le_mul h4 h3 (by positivity) (le_trans (by positivity) h4)

theorem convert (neg : Bool) (m : ℚ) (h0 : 0 ≤ m) (hm : IsBinary f.prec f.emin m) (hmax : m ≤ f.maxVal) :
    f.convert neg (round6 m) = (.fin neg (f.rnd (round6 m)), false) := by
  unfold Fmt.convert
  rw [if_neg (not_lt.2 (hf.in_range m h0 hm hmax))]
  have : ¬ (f.rnd (round6 m) ≠ round6 m ∧ round6 m < f.minNormal) := by
    rintro ⟨h1, h2⟩
    apply h1
    have h3 : f.minNormal ≤ 2 ^ (-20 : Int) := zpow_le_zpow_right₀ (by norm_num) hf.emin
    have h4 : (2 : ℚ) ^ (-20 : Int) < 1 / 1000000 := by norm_num
    have h5 : round6 m < 1 / 1000000 := (h2.trans_le h3).trans h4
    have h6 : round6 m = 0 := by
      unfold round6 at h5 ⊢
      have h7 : ((roundEven (m * 1000000)).toNat : ℚ) < 1 := by linarith
      have h8 : (roundEven (m * 1000000)).toNat < 1 := by exact_mod_cast h7
      have : (roundEven (m * 1000000)).toNat = 0 := by omega
      rw [this]; simp
    rw [h6, f.rnd_zero]
  simp [this]

end Fmt.Usual

theorem round6_nearest {m : ℚ} (h : 0 ≤ m) : ∀ z, IsMultiple (1 / 1000000) z → |round6 m - m| ≤ |z - m| := by
  rintro z ⟨n, rfl⟩
  have h1 := roundEven_nearest (m * 1000000) n
  rw [round6_eq h]
  have e : ∀ k : ℚ, k * (1 / 1000000) - m = (k - m * 1000000) * (1 / 1000000) := by intro k; ring
  rw [div_eq_mul_one_div, e, e, abs_mul, abs_mul]
  exact mul_le_mul_of_nonneg_right h1 (abs_nonneg _)

theorem round_trip {f : Fmt} (hf : f = .double ∨ f = .single) (neg : Bool) {m : ℚ} (h0 : 0 ≤ m) (hmax : m ≤ f.maxVal)
    (hb : IsBinary f.prec f.emin m) : realFrom f (realTo (.fin neg m)) = .ok (.fin neg (f.rnd (round6 m))) := by
  have hd := fixed6_decimal (roundEven (m * 1000000)).toNat
  have hs : (if neg then ([45] : Str) else []) = [] ∨ (if neg then ([45] : Str) else []) = [43] ∨
      (if neg then ([45] : Str) else []) = [45] := by cases neg <;> simp
  have h1 := cstr_decimal (ws := []) (by simp) hs hd []
  have h2 := strtod_decimal f (ws := []) (rest := []) (by simp) hs hd (by simp [Ends])
  have e : realTo (.fin neg m) = [] ++ (if neg then ([45] : Str) else []) ++
      (natStr ((roundEven (m * 1000000)).toNat / 1000000) ++ 46 :: pad6 ((roundEven (m * 1000000)).toNat % 1000000)) ++ [] := by
    simp [realTo, fixed6]
  have hc := (usual hf).convert neg m h0 hb hmax
  have hneg : ((if neg then ([45] : Str) else []) == [45]) = neg := by cases neg <;> rfl
  rw [hneg] at h2
  unfold realFrom stod
  rw [e, h1, show cstr [] = [] from rfl, h2]
  show (if (f.convert neg (round6 m)).2 = true then _ else Res.ok (f.convert neg (round6 m)).1) = _
  rw [hc]
  simp

end Flut
