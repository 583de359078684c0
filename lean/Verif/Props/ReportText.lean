import Verif.Model.ReportText
import Verif.Spec.ReportText
import Verif.Proofs.FloatLerp
import Verif.Props.FloatAverage
import Verif.Props.Report

/-! # Property theorems: the text of the profiler's report (C126) -/

namespace Flut

open Spec

private theorem hd : Fmt.double = .double ∨ Fmt.double = .single := Or.inl rfl

/-! ## Numbers in columns -/

theorem natStr_length {n j : Nat} (hj : 1 ≤ j) (h : n < 10 ^ j) : (natStr n).length ≤ j := natStrF_length _ n j hj h

theorem natStr_zero_head (n : Nat) (h : (natStr n).head? = some 48) : natStr n = b!"0" := by
  have := natStr_head n h
  subst this
  rfl

/-- A finite value is shown to half a unit of the last digit. -/
theorem column_fixed (w p : Nat) (x : Flt) (q : ℚ) (hx : Stands .double x q) :
    ∃ v, Column w p (padLeft w (printfFixed p x)) v ∧ |v - q| ≤ 1 / (2 * 10 ^ p) := by
  have hnn : ∀ s m, x = .fin s m → 0 ≤ m := by rintro s m rfl; exact hx.1.1
  obtain ⟨neg, m, rfl, rfl⟩ := hx.fin
  have hm := hnn _ _ rfl
  have hp : (0 : ℚ) < 10 ^ p := by positivity
  obtain ⟨n, hn⟩ : ∃ n, n = (roundEven (m * 10 ^ p)).toNat := ⟨_, rfl⟩
  have hnr : |(n : ℚ) - m * 10 ^ p| ≤ 1 / 2 := by
    have h1 := roundEven_nonneg (q := m * 10 ^ p) (by positivity)
    have : (((roundEven (m * 10 ^ p)).toNat : Int) : ℚ) = roundEven (m * 10 ^ p) := by rw [Int.toNat_of_nonneg h1]
    rw [hn, ← Int.cast_natCast, this]
    exact roundEven_near _
  obtain ⟨d1, d2⟩ := natStr_digits (n / 10 ^ p)
  obtain ⟨d3, d4⟩ := natStr_digits (n % 10 ^ p)
  obtain ⟨b, hb⟩ : ∃ b, b = if p = 0 then [] else List.replicate (p - (natStr (n % 10 ^ p)).length) (48 : Byte) ++ natStr (n % 10 ^ p) := ⟨_, rfl⟩
  have hmod : n % 10 ^ p < 10 ^ p := Nat.mod_lt _ (by positivity)
  have hbl : b.length = p := by
    rw [hb]
    split
    · simp [*]
    · rename_i h0
      have := natStr_length (n := n % 10 ^ p) (j := p) (by omega) hmod
      rw [List.length_append, List.length_replicate]
      omega
  have hbv : decValue b = n % 10 ^ p := by
    rw [hb]
    split
    · rename_i h0
      subst h0
      simp [decValue, Nat.mod_one]
    · rw [decValue_append', decValue_zeros, d4]; omega
  have hbd : ∀ d ∈ b, 48 ≤ d.toNat ∧ d.toNat ≤ 57 := by
    rw [hb]
    intro d hd
    split at hd
    · simp at hd
    · rcases List.mem_append.1 hd with h | h
      · rw [(List.mem_replicate.1 h).2]; decide
      · exact d3.2 d h
  have htext : printfFixed p (.fin neg m) = (if neg then b!"-" else []) ++ natStr (n / 10 ^ p) ++ (if p = 0 then [] else c!"." :: b) := by
    unfold printfFixed
    rw [hb, hn]
    by_cases h0 : p = 0
    · simp only [h0, if_true]
    · simp only [h0, if_false]
  refine ⟨(if neg then -1 else 1) * (decValue (natStr (n / 10 ^ p) ++ b) / 10 ^ p), ⟨w - (printfFixed p (.fin neg m)).length, neg, natStr (n / 10 ^ p), b, ?_, d1, ?_, hbd, hbl, rfl, ?_, ?_⟩, ?_⟩
  · unfold padLeft
    rw [htext]
    simp only [List.append_assoc]
  · exact natStr_zero_head _
  · unfold padLeft; rw [List.length_append, List.length_replicate]; omega
  · intro hk
    unfold padLeft; rw [List.length_append, List.length_replicate]; omega
  · have hval : ((decValue (natStr (n / 10 ^ p) ++ b) : Nat) : ℚ) = n := by
      rw [decValue_append', d2, hbv, hbl]
      exact_mod_cast Nat.div_add_mod' n (10 ^ p)
    rw [hval]
    have key : |(n : ℚ) / 10 ^ p - m| ≤ 1 / (2 * 10 ^ p) := by
      rw [show (n : ℚ) / 10 ^ p - m = (n - m * 10 ^ p) / 10 ^ p by field_simp, abs_div, abs_of_pos hp, div_le_div_iff₀ hp (by positivity)]
      have := mul_le_mul_of_nonneg_right hnr (show (0 : ℚ) ≤ 2 * 10 ^ p by positivity)
      linarith
    cases neg with
    | false => simpa [Flt.val] using key
    | true =>
      rw [if_pos rfl, show -1 * ((n : ℚ) / 10 ^ p) - (Flt.fin true m).val = -((n : ℚ) / 10 ^ p - m) by simp [Flt.val]; ring, abs_neg]
      exact key

/-! ## Times and percentages -/

/-- `x` is `q` to a relative error of `a` units. -/
def RelNear (x q a : ℚ) : Prop := |x - q| ≤ a / 2 ^ 53 * |q|

theorem RelNear.round {x q a : ℚ} (h : RelNear x q a) (ha : 0 ≤ a) (ha' : a ≤ 100) (hx : x = 0 ∨ 1 / 2 ^ 200 ≤ |x|) :
    RelNear (Fmt.double.srnd x) q (a + 101 / 100) := by
  have e : |Fmt.double.srnd x - x| ≤ |x| / 2 ^ 53 := by
    rcases hx with rfl | hx
    · rw [Fmt.srnd_zero]; simp
    · apply srnd_rel_normal (f := .double)
      refine le_trans ?_ (le_trans hx (by linarith [abs_nonneg x]))
      rw [show (1 : ℚ) / 2 ^ 200 = 2 ^ (-200 : Int) by rw [zpow_neg, one_div]; norm_num, show (2 : ℚ) ^ Fmt.double.prec = 2 ^ (53 : Int) by rw [← zpow_natCast]; rfl, ← zpow_add₀ (by norm_num)]
      exact zpow_le_zpow_right₀ (by norm_num) (by decide)
  unfold RelNear at h ⊢
  have t := abs_sub_le (Fmt.double.srnd x) x q
  have t2 : |x| ≤ |q| + a / 2 ^ 53 * |q| := by
    have := abs_sub_le x q 0
    rw [sub_zero, sub_zero] at this
    linarith
  have hq := abs_nonneg q
  have h1 := mul_le_mul_of_nonneg_right ha' hq
  linarith

theorem RelNear.zero_iff {x q a : ℚ} (h : RelNear x q a) (ha : a ≤ 100) : x = 0 ↔ q = 0 := by
  unfold RelNear at h
  constructor
  · rintro rfl
    rw [zero_sub, abs_neg] at h
    have hq := abs_nonneg q
    have h1 := mul_le_mul_of_nonneg_right ha hq
    exact abs_eq_zero.1 (by linarith)
  · rintro rfl
    rw [abs_zero, mul_zero, sub_zero] at h
    exact abs_eq_zero.1 (le_antisymm h (abs_nonneg _))

theorem RelNear.bounds {x q a : ℚ} (h : RelNear x q a) (ha : a ≤ 100) : |q| / 2 ≤ |x| ∧ |x| ≤ 2 * |q| := by
  unfold RelNear at h
  have hq := abs_nonneg q
  have h1 := mul_le_mul_of_nonneg_right ha hq
  have t1 := abs_sub_le x q 0
  have t2 := abs_sub_le q x 0
  rw [sub_zero, sub_zero] at t1 t2
  rw [abs_sub_comm] at t2
  constructor <;> linarith

theorem RelNear.div {x q y r a b : ℚ} (h : RelNear x q a) (h' : RelNear y r b) (ha : 0 ≤ a) (ha' : a ≤ 10) (hb : 0 ≤ b) (hb' : b ≤ 10) (hr : r ≠ 0) :
    RelNear (x / y) (q / r) (a + b + 1 / 100) := by
  have hy := h'.bounds (by linarith)
  unfold RelNear at *
  have hr0 : 0 < |r| := abs_pos.2 hr
  have hy0 : 0 < |y| := by linarith
  have hyne : y ≠ 0 := abs_pos.1 hy0
  have hq := abs_nonneg q
  have e : x / y - q / r = ((x - q) * r - q * (y - r)) / (y * r) := by field_simp; ring
  have yl : (1 - b / 2 ^ 53) * |r| ≤ |y| := by
    have t2 := abs_sub_le r y 0
    rw [sub_zero, sub_zero, abs_sub_comm] at t2
    linarith
  rw [e, abs_div, abs_mul, abs_div, div_le_iff₀ (by positivity)]
  have n1 : |(x - q) * r - q * (y - r)| ≤ (a + b) / 2 ^ 53 * (|q| * |r|) := by
    have h1 := abs_sub_le ((x - q) * r) 0 (q * (y - r))
    rw [sub_zero, zero_sub, abs_neg, abs_mul, abs_mul] at h1
    have h2 := mul_le_mul_of_nonneg_right h hr0.le
    have h3 := mul_le_mul_of_nonneg_left h' hq
    linarith
  have n2 : (a + b) / 2 ^ 53 * (|q| * |r|) ≤ (a + b + 1 / 100) / 2 ^ 53 * (|q| * ((1 - b / 2 ^ 53) * |r|)) := by
    have h0 : 0 ≤ |q| * |r| := by positivity
    have h1 : (a + b) ≤ (a + b + 1 / 100) * (1 - b / 2 ^ 53) := by nlinarith
    have h2 := mul_le_mul_of_nonneg_right h1 h0
    have e2 : (a + b + 1 / 100) / 2 ^ 53 * (|q| * ((1 - b / 2 ^ 53) * |r|)) = (a + b + 1 / 100) * (1 - b / 2 ^ 53) * (|q| * |r|) / 2 ^ 53 := by ring
    have e3 : (a + b) / 2 ^ 53 * (|q| * |r|) = (a + b) * (|q| * |r|) / 2 ^ 53 := by ring
    rw [e2, e3]
    exact div_le_div_of_nonneg_right h2 (by norm_num)
  have n3 : (a + b + 1 / 100) / 2 ^ 53 * (|q| * ((1 - b / 2 ^ 53) * |r|)) ≤ (a + b + 1 / 100) / 2 ^ 53 * (|q| * |y|) :=
    mul_le_mul_of_nonneg_left (mul_le_mul_of_nonneg_left yl hq) (by positivity)
  have e4 : (a + b + 1 / 100) / 2 ^ 53 * (|q| / |r|) * (|y| * |r|) = (a + b + 1 / 100) / 2 ^ 53 * (|q| * |y|) := by field_simp
  rw [e4]
  linarith

private theorem million : Stands .double (.fin false 1000000) 1000000 :=
  ⟨⟨by norm_num, by linarith [(fmt_consts hd).2.2.2, (by norm_num : (1000000 : ℚ) ≤ 2 ^ 100)], 1000000, 0, by decide, by decide, by norm_num⟩, rfl⟩

private theorem hundred : Stands .double (.fin false 100) 100 :=
  ⟨⟨by norm_num, by linarith [(fmt_consts hd).2.2.2, (by norm_num : (100 : ℚ) ≤ 2 ^ 100)], 100, 0, by decide, by decide, by norm_num⟩, rfl⟩

/-- Nanoseconds as milliseconds. -/
theorem millis_near (n : Int) (hn : |n| ≤ 2 ^ 63) : ∃ x, Stands .double (millis n) x ∧ RelNear x (n / 1000000) (203 / 100) := by
  have k4 := (fmt_consts hd).2.2.2
  have hq : |(n : ℚ)| ≤ 2 ^ 63 := by exact_mod_cast hn
  have one : n ≠ 0 → (1 : ℚ) ≤ |(n : ℚ)| := by
    intro h
    have : 1 ≤ |n| := Int.one_le_abs h
    exact_mod_cast this
  have r0 : RelNear (n : ℚ) n 0 := by unfold RelNear; simp
  have r1 := r0.round le_rfl (by norm_num) (by
    by_cases h : n = 0
    · left; exact_mod_cast h
    · right; exact le_trans (by norm_num) (one h))
  have s1 : Stands .double (doubleOf n) (Fmt.double.srnd n) := result_stands hd false (by linarith [(by norm_num : (2 : ℚ) ^ 63 ≤ 2 ^ 100)])
  set x1 := Fmt.double.srnd (n : ℚ) with hx1
  have b1 := r1.bounds (by norm_num)
  have hd1 : |x1 / 1000000| ≤ Fmt.double.maxVal := by
    rw [abs_div, abs_of_pos (by norm_num : (0 : ℚ) < 1000000)]
    have : |x1| / 1000000 ≤ |x1| := div_le_self (abs_nonneg _) (by norm_num)
    linarith [(by norm_num : 2 * (2 : ℚ) ^ 63 ≤ 2 ^ 100)]
  have s2 := div_stands hd s1 million (by norm_num) hd1
  have r2 : RelNear (x1 / 1000000) (n / 1000000) (0 + 101 / 100) := by
    unfold RelNear at r1 ⊢
    rw [← sub_div, abs_div, abs_div, abs_of_pos (by norm_num : (0 : ℚ) < 1000000), ← mul_div_assoc]
    exact div_le_div_of_nonneg_right r1 (by norm_num)
  have r3 := r2.round (by norm_num) (by norm_num) (by
    by_cases h : n = 0
    · left
      rw [(r1.zero_iff (by norm_num)).2 (by exact_mod_cast h), zero_div]
    · right
      rw [abs_div, abs_of_pos (by norm_num : (0 : ℚ) < 1000000), le_div_iff₀ (by norm_num)]
      have := one h
      refine le_trans ?_ (le_trans (show (1 : ℚ) / 2 ≤ |(n : ℚ)| / 2 by linarith) b1.1)
      norm_num)
  refine ⟨_, s2, ?_⟩
  unfold RelNear at r3 ⊢
  refine r3.trans (mul_le_mul_of_nonneg_right (by norm_num) (abs_nonneg _))

/-- Percentages. -/
theorem percent_near (n d : Int) (hn : |n| ≤ 2 ^ 63) (hd' : |d| ≤ 2 ^ 63) (h0 : d ≠ 0) :
    ∃ x, Stands .double (percent (millis n) (millis d)) x ∧ RelNear x (100 * n / d) 8 := by
  have k4 := (fmt_consts hd).2.2.2
  obtain ⟨x, sx, rx⟩ := millis_near n hn
  obtain ⟨y, sy, ry⟩ := millis_near d hd'
  have hq : |(n : ℚ)| ≤ 2 ^ 63 := by exact_mod_cast hn
  have hqd : |(d : ℚ)| ≤ 2 ^ 63 := by exact_mod_cast hd'
  have one : ∀ z : Int, z ≠ 0 → (1 : ℚ) ≤ |(z : ℚ)| := by
    intro z h
    have : 1 ≤ |z| := Int.one_le_abs h
    exact_mod_cast this
  have hdq : (d : ℚ) ≠ 0 := by exact_mod_cast h0
  have bx := rx.bounds (by norm_num)
  have byy := ry.bounds (by norm_num)
  rw [abs_div, abs_of_pos (by norm_num : (0 : ℚ) < 1000000)] at bx byy
  have hd1 := one d h0
  have hy0 : 0 < |y| := by linarith
  have s1 := mul_stands hd hundred sx (by rw [abs_mul, abs_of_pos (by norm_num : (0 : ℚ) < 100)]; linarith [(by norm_num : 100 * (2 * ((2 : ℚ) ^ 63 / 1000000)) ≤ 2 ^ 100)])
  have r1 : RelNear (100 * x) (100 * (n / 1000000)) (203 / 100) := by
    unfold RelNear at rx ⊢
    rw [← mul_sub, abs_mul, abs_mul, abs_of_pos (by norm_num : (0 : ℚ) < 100)]
    linarith
  have r2 := r1.round (by norm_num) (by norm_num) (by
    by_cases h : n = 0
    · left
      rw [(rx.zero_iff (by norm_num)).2 (by rw [h]; simp), mul_zero]
    · right
      have := one n h
      rw [abs_mul, abs_of_pos (by norm_num : (0 : ℚ) < 100)]
      linarith [(by norm_num : (1 : ℚ) / 2 ^ 200 ≤ 100 * (1 / 1000000 / 2))])
  set x1 := Fmt.double.srnd (100 * x) with hx1
  have bx1 := r2.bounds (by norm_num)
  rw [abs_mul, abs_of_pos (by norm_num : (0 : ℚ) < 100), abs_div, abs_of_pos (by norm_num : (0 : ℚ) < 1000000)] at bx1
  have r3 := r2.div ry (by norm_num) (by norm_num) (by norm_num) (by norm_num) (div_ne_zero hdq (by norm_num))
  have e : 100 * ((n : ℚ) / 1000000) / (d / 1000000) = 100 * n / d := by field_simp
  rw [e] at r3
  have hquo : |x1 / y| ≤ 2 ^ 100 := by
    rw [abs_div, div_le_iff₀ hy0]
    have h1 : |x1| ≤ 2 * (100 * (2 ^ 63 / 1000000)) := by linarith
    have h2 : (1 : ℚ) / 2000000 ≤ |y| := by linarith
    have h3 := mul_le_mul_of_nonneg_left h2 (show (0 : ℚ) ≤ 2 ^ 100 by norm_num)
    linarith [(by norm_num : 2 * (100 * ((2 : ℚ) ^ 63 / 1000000)) ≤ 2 ^ 100 * (1 / 2000000))]
  have s2 := div_stands hd s1 sy (abs_pos.1 hy0) (hquo.trans k4)
  have r4 := r3.round (by norm_num) (by norm_num) (by
    by_cases h : n = 0
    · left
      rw [(r2.zero_iff (by norm_num)).2 (by rw [h]; simp), zero_div]
    · right
      have hn1 := one n h
      rw [abs_div, le_div_iff₀ hy0]
      have h1 : |y| ≤ 2 * (2 ^ 63 / 1000000) := by linarith
      linarith [(by norm_num : (1 : ℚ) / 2 ^ 200 * (2 * (2 ^ 63 / 1000000)) ≤ 100 * (1 / 1000000) / 2), mul_le_mul_of_nonneg_left h1 (show (0 : ℚ) ≤ 1 / 2 ^ 200 by norm_num)])
  refine ⟨_, s2, ?_⟩
  unfold RelNear at r4 ⊢
  refine r4.trans (mul_le_mul_of_nonneg_right (by norm_num) (abs_nonneg _))

/-! ## Widths -/

theorem printfFixed_length (p j : Nat) (x : Flt) (q : ℚ) (hx : Stands .double x q) (hj : 1 ≤ j) (h : |q| * 10 ^ p < 10 ^ (j + p) - 1 / 2) :
    (printfFixed p x).length ≤ (if q ≤ 0 then 1 else 0) + (if q = 0 then 1 else j) + (if p = 0 then 0 else p + 1) := by
  have hnn : ∀ s m, x = .fin s m → 0 ≤ m := by rintro s m rfl; exact hx.1.1
  obtain ⟨neg, m, rfl, rfl⟩ := hx.fin
  have hm := hnn _ _ rfl
  have habs : |(Flt.fin neg m).val| = m := by cases neg <;> simp [Flt.val, abs_of_nonneg hm]
  rw [habs] at h
  obtain ⟨n, hn⟩ : ∃ n, n = (roundEven (m * 10 ^ p)).toNat := ⟨_, rfl⟩
  have h1 := roundEven_nonneg (q := m * 10 ^ p) (by positivity)
  have hni : (n : Int) = roundEven (m * 10 ^ p) := by rw [hn]; exact Int.toNat_of_nonneg h1
  have hlt : n < 10 ^ (j + p) := by
    have h2 := (abs_le.1 (roundEven_near (m * 10 ^ p))).2
    rw [← hni] at h2
    have : (n : ℚ) < 10 ^ (j + p) := by push_cast at h2; linarith
    exact_mod_cast this
  have hdig : (natStr (n / 10 ^ p)).length ≤ if (Flt.fin neg m).val = 0 then 1 else j := by
    split
    · rename_i h0
      have hm0 : m = 0 := by rw [← habs, h0, abs_zero]
      have hn0 : n = 0 := by
        have h2 := roundEven_near (m * 10 ^ p)
        rw [← hni, hm0, zero_mul, sub_zero] at h2
        by_contra hne
        have : (1 : ℚ) ≤ n := by exact_mod_cast Nat.one_le_iff_ne_zero.2 hne
        push_cast at h2
        have := le_abs_self (n : ℚ)
        linarith
      rw [hn0, Nat.zero_div]
      decide
    · refine natStr_length hj ?_
      rw [Nat.div_lt_iff_lt_mul (by positivity), ← pow_add]
      exact hlt
  have hsign : (if neg then [45] else [] : Str).length ≤ if (Flt.fin neg m).val ≤ 0 then 1 else 0 := by
    cases neg with
    | false => simp
    | true =>
      rw [if_pos (show (Flt.fin true m).val ≤ 0 by simp [Flt.val]; exact hm)]
      simp
  have hfrac : (if p = 0 then [] else 46 :: (List.replicate (p - (natStr (n % 10 ^ p)).length) 48 ++ natStr (n % 10 ^ p)) : Str).length ≤ if p = 0 then 0 else p + 1 := by
    split
    · simp
    · have := natStr_length (n := n % 10 ^ p) (j := p) (by omega) (Nat.mod_lt _ (by positivity))
      rw [List.length_cons, List.length_append, List.length_replicate]
      omega
  have htext : printfFixed p (.fin neg m) = (if neg then [45] else []) ++ natStr (n / 10 ^ p) ++
      (if p = 0 then [] else 46 :: (List.replicate (p - (natStr (n % 10 ^ p)).length) 48 ++ natStr (n % 10 ^ p))) := by
    rw [hn]; rfl
  rw [htext]
  simp only [List.length_append]
  omega

theorem padLeft_length (w : Nat) (s : Str) : (padLeft w s).length = max w s.length := by
  unfold padLeft; rw [List.length_append, List.length_replicate]; omega

/-! ## C126 -/

private theorem near_le {x q a : ℚ} (h : RelNear x q a) (ha : a ≤ 8) : |x - q| ≤ |q| / 2 ^ 50 := by
  unfold RelNear at h
  have := mul_le_mul_of_nonneg_right ha (abs_nonneg q)
  linarith

/-- A line of the report of a section with a positive time, in a program that runs for a positive time: the total time in milliseconds without decimals,
and the percentages of the total time and of the exclusive time in the time of the program and of the overhead in the total time with two decimals, each
correct to half a unit of the last decimal shown, up to the rounding errors of `double`. The text is complete. -/
theorem C126_line (l : Profiler.Line) (hr : 0 < l.root) (ht : 0 < l.total) (hr' : l.root ≤ 2 ^ 63) (ht' : l.total ≤ 2 ^ 63) (he : |l.exclusive| ≤ 2 ^ 63)
    (ho : |l.overhead| ≤ 2 ^ 63) :
    ∃ s1 s2 s3 s4 v1 v2 v3 v4, reportLine l = s1 ++ b!"ms " ++ s2 ++ b!"% (" ++ s3 ++ b!"% exclusive " ++ s4 ++ b!"% overhead)" ∧
      (Column 6 0 s1 v1 ∧ |v1 - l.total / 1000000| ≤ 1 / 2 + (l.total / 1000000 : ℚ) / 2 ^ 50) ∧
      (Column 6 2 s2 v2 ∧ |v2 - 100 * l.total / l.root| ≤ 1 / 200 + (100 * l.total / l.root : ℚ) / 2 ^ 50) ∧
      (Column 5 2 s3 v3 ∧ |v3 - 100 * l.exclusive / l.root| ≤ 1 / 200 + |(100 * l.exclusive / l.root : ℚ)| / 2 ^ 50) ∧
      Column 5 2 s4 v4 ∧ |v4 - 100 * l.overhead / l.total| ≤ 1 / 200 + |(100 * l.overhead / l.total : ℚ)| / 2 ^ 50 := by
  have hra : |l.root| ≤ 2 ^ 63 := by rw [abs_of_pos hr]; exact hr'
  have hta : |l.total| ≤ 2 ^ 63 := by rw [abs_of_pos ht]; exact ht'
  have hrq : (1 : ℚ) ≤ l.root := by exact_mod_cast hr
  have htq : (1 : ℚ) ≤ l.total := by exact_mod_cast ht
  obtain ⟨x1, sx1, r1⟩ := millis_near l.total hta
  obtain ⟨x2, sx2, r2⟩ := percent_near l.total l.root hta hra hr.ne'
  obtain ⟨x3, sx3, r3⟩ := percent_near l.exclusive l.root he hra hr.ne'
  obtain ⟨x4, sx4, r4⟩ := percent_near l.overhead l.total ho hta ht.ne'
  obtain ⟨v1, c1, e1⟩ := column_fixed 6 0 _ _ sx1
  obtain ⟨v2, c2, e2⟩ := column_fixed 6 2 _ _ sx2
  obtain ⟨v3, c3, e3⟩ := column_fixed 5 2 _ _ sx3
  obtain ⟨v4, c4, e4⟩ := column_fixed 5 2 _ _ sx4
  have n1 := near_le r1 (by norm_num)
  have n2 := near_le r2 le_rfl
  have n3 := near_le r3 le_rfl
  have n4 := near_le r4 le_rfl
  have a1 : |(l.total / 1000000 : ℚ)| = l.total / 1000000 := abs_of_nonneg (by positivity)
  have a2 : |(100 * l.total / l.root : ℚ)| = 100 * l.total / l.root := abs_of_nonneg (by positivity)
  refine ⟨_, _, _, _, v1, v2, v3, v4, ?_, ⟨c1, ?_⟩, ⟨c2, ?_⟩, ⟨c3, ?_⟩, c4, ?_⟩
  · unfold reportLine lineFormat
    apply List.take_of_length_le
    have big : ∀ {n d : Int} {x : ℚ}, |n| ≤ 2 ^ 63 → (1 : ℚ) ≤ d → RelNear x (100 * n / d) 8 → |x| * 10 ^ 2 < 10 ^ (22 + 2) - 1 / 2 := by
      intro n d x hn hd r
      have hnq : |(n : ℚ)| ≤ 2 ^ 63 := by exact_mod_cast hn
      have hb := (r.bounds (by norm_num)).2
      have : |(100 * n / d : ℚ)| ≤ 100 * 2 ^ 63 := by
        rw [abs_div, abs_mul, abs_of_pos (by norm_num : (0 : ℚ) < 100), abs_of_pos (show (0 : ℚ) < d by linarith), div_le_iff₀ (by linarith)]
        have := mul_le_mul_of_nonneg_left hd (show (0 : ℚ) ≤ 100 * 2 ^ 63 by norm_num)
        linarith
      norm_num at this ⊢
      linarith
    have l1 := printfFixed_length 0 22 _ _ sx1 (by norm_num) (by
      have hb := (r1.bounds (by norm_num)).2
      have : (l.total : ℚ) ≤ 2 ^ 63 := by exact_mod_cast ht'
      rw [a1] at hb
      norm_num at this ⊢
      linarith)
    have l2 := printfFixed_length 2 22 _ _ sx2 (by norm_num) (big hta hrq r2)
    have l3 := printfFixed_length 2 22 _ _ sx3 (by norm_num) (big he hrq r3)
    have l4 := printfFixed_length 2 22 _ _ sx4 (by norm_num) (big ho htq r4)
    have cap : ∀ (q : ℚ) (c : Nat), (if q ≤ 0 then 1 else 0) + (if q = 0 then 1 else 22) + c ≤ 23 + c := by
      intro q c; split <;> split <;> omega
    have l1' := l1.trans (cap _ _)
    have l2' := l2.trans (cap _ _)
    have l3' := l3.trans (cap _ _)
    have l4' := l4.trans (cap _ _)
    simp only [if_true, if_false, show ¬ (2 : Nat) = 0 by decide] at l1' l2' l3' l4'
    simp only [List.length_append, padLeft_length, List.length_cons, List.length_nil]
    omega
  · have := abs_sub_le v1 x1 (l.total / 1000000)
    rw [a1] at n1
    norm_num at e1 ⊢
    norm_num at n1
    linarith
  · have := abs_sub_le v2 x2 (100 * l.total / l.root)
    rw [a2] at n2
    norm_num at e2 n2 ⊢
    linarith
  · have := abs_sub_le v3 x3 (100 * l.exclusive / l.root)
    norm_num at e3 n3 ⊢
    linarith
  · have := abs_sub_le v4 x4 (100 * l.overhead / l.total)
    norm_num at e4 n4 ⊢
    linarith

/-- Lines have the same length, so that the columns of the report are aligned, if the program ran less than 999999 milliseconds and no exclusive time
and no overhead is above 99.99 percent. -/
theorem C126_aligned (l : Profiler.Line) (ht : 0 < l.total) (htr : l.total ≤ l.root) (hr : l.root ≤ 999999 * 1000000) (he : 0 ≤ l.exclusive)
    (her : 10000 * l.exclusive ≤ 9999 * l.root) (ho : 0 ≤ l.overhead) (hot : 10000 * l.overhead ≤ 9999 * l.total) : (reportLine l).length = 51 := by
  have h63 : (999999 * 1000000 : Int) ≤ 2 ^ 63 := by norm_num
  have hr0 : 0 < l.root := by omega
  have hra : |l.root| ≤ 2 ^ 63 := by rw [abs_of_pos hr0]; omega
  have hta : |l.total| ≤ 2 ^ 63 := by rw [abs_of_pos ht]; omega
  have hea : |l.exclusive| ≤ 2 ^ 63 := by rw [abs_of_nonneg he]; omega
  have hoa : |l.overhead| ≤ 2 ^ 63 := by rw [abs_of_nonneg ho]; omega
  have hrq : (1 : ℚ) ≤ l.root := by exact_mod_cast hr0
  have htq : (1 : ℚ) ≤ l.total := by exact_mod_cast ht
  obtain ⟨x1, sx1, r1⟩ := millis_near l.total hta
  obtain ⟨x2, sx2, r2⟩ := percent_near l.total l.root hta hra hr0.ne'
  obtain ⟨x3, sx3, r3⟩ := percent_near l.exclusive l.root hea hra hr0.ne'
  obtain ⟨x4, sx4, r4⟩ := percent_near l.overhead l.total hoa hta ht.ne'
  have cap : ∀ {x q : ℚ} {B : ℚ}, |x - q| ≤ |q| / 2 ^ 50 → 0 ≤ q → q ≤ B → 0 ≤ x ∧ |x| ≤ B + B / 2 ^ 50 := by
    intro x q B h h0 h1
    rw [abs_of_nonneg h0] at h
    have h2 := abs_le.1 h
    have hx : 0 ≤ x := by linarith
    refine ⟨hx, ?_⟩
    rw [abs_of_nonneg hx]
    linarith
  have ratio : ∀ {n d : Int} {B : ℚ}, (1 : ℚ) ≤ d → (n : ℚ) * 100 ≤ B * d → (100 * n / d : ℚ) ≤ B := by
    intro n d B hd h
    rw [div_le_iff₀ (by linarith)]
    linarith
  have heq : (0 : ℚ) ≤ l.exclusive := by exact_mod_cast he
  have hoq : (0 : ℚ) ≤ l.overhead := by exact_mod_cast ho
  have k1 := cap (near_le r1 (by norm_num)) (by positivity) (show (l.total / 1000000 : ℚ) ≤ 999999 by
    rw [div_le_iff₀ (by norm_num)]; exact_mod_cast htr.trans hr)
  have k2 := cap (near_le r2 le_rfl) (by positivity) (ratio (B := 100) hrq (by
    have : (l.total : ℚ) ≤ l.root := by exact_mod_cast htr
    linarith))
  have k3 := cap (near_le r3 le_rfl) (by positivity) (ratio (B := 9999 / 100) hrq (by
    have : (10000 * l.exclusive : ℚ) ≤ 9999 * l.root := by exact_mod_cast her
    linarith))
  have k4 := cap (near_le r4 le_rfl) (by positivity) (ratio (B := 9999 / 100) htq (by
    have : (10000 * l.overhead : ℚ) ≤ 9999 * l.total := by exact_mod_cast hot
    linarith))
  have l1 := printfFixed_length 0 6 _ _ sx1 (by norm_num) (by have := k1.2; norm_num at this ⊢; linarith)
  have l2 := printfFixed_length 2 3 _ _ sx2 (by norm_num) (by have := k2.2; norm_num at this ⊢; linarith)
  have l3 := printfFixed_length 2 2 _ _ sx3 (by norm_num) (by have := k3.2; norm_num at this ⊢; linarith)
  have l4 := printfFixed_length 2 2 _ _ sx4 (by norm_num) (by have := k4.2; norm_num at this ⊢; linarith)
  have sgn : ∀ (q : ℚ) (j c : Nat), 2 ≤ j → 0 ≤ q → (if q ≤ 0 then 1 else 0) + (if q = 0 then 1 else j) + c ≤ j + c := by
    intro q j c hj h
    split <;> split
    · omega
    · rename_i a b; exact absurd (le_antisymm a h) b
    · omega
    · omega
  have l1' := l1.trans (sgn _ 6 _ (by norm_num) k1.1)
  have l2' := l2.trans (sgn _ 3 _ (by norm_num) k2.1)
  have l3' := l3.trans (sgn _ 2 _ (by norm_num) k3.1)
  have l4' := l4.trans (sgn _ 2 _ (by norm_num) k4.1)
  simp only [if_true, if_false, show ¬ (2 : Nat) = 0 by decide] at l1' l2' l3' l4'
  unfold reportLine lineFormat
  simp only [List.length_take, List.length_append, padLeft_length, List.length_cons, List.length_nil]
  omega

private theorem result_zero : Fmt.double.result false 0 = .fin false 0 := by
  unfold Fmt.result
  have h0 : Fmt.double.rnd |0| = 0 := by rw [abs_zero]; exact Fmt.rnd_zero _
  rw [h0, if_neg (not_lt.2 (by linarith [(fmt_consts hd).2.2.2, (by norm_num : (0 : ℚ) ≤ 2 ^ 100)]))]
  simp

private theorem millis_zero : millis 0 = .fin false 0 := by
  unfold millis doubleOf Fmt.ofRat
  rw [Int.cast_zero, result_zero]
  simp only [Fmt.div, show ¬ (1000000 : ℚ) = 0 by norm_num, if_false, bne_self_eq_false, Bool.false_eq_true, zero_div]
  exact result_zero

/-- The sections that have taken no time, such as those that are open and have not been finished before, have no sensible overhead: it is shown as infinite
or as not a number. -/
theorem C126_open_refuted (root exclusive overhead : Int) (ho : 0 ≤ overhead) (ho' : overhead ≤ 2 ^ 63) :
    ∃ pre, lineFormat ⟨root, 0, exclusive, overhead⟩ = pre ++ (if overhead = 0 then b!"  nan" else b!"  inf") ++ b!"% overhead)" := by
  have key : padLeft 5 (printfFixed 2 (percent (millis overhead) (millis 0))) = if overhead = 0 then b!"  nan" else b!"  inf" := by
    rw [millis_zero]
    unfold percent
    split
    · rename_i h
      rw [h, millis_zero]
      simp only [Fmt.mul, bne_self_eq_false, Bool.false_eq_true, if_false, mul_zero]
      rw [result_zero]
      simp only [Fmt.div, if_true]
      rfl
    · rename_i h
      have hoa : |overhead| ≤ 2 ^ 63 := by rw [abs_of_nonneg ho]; exact ho'
      have hq : (1 : ℚ) ≤ overhead := by exact_mod_cast (by omega : 1 ≤ overhead)
      have hq' : (overhead : ℚ) ≤ 2 ^ 63 := by exact_mod_cast ho'
      obtain ⟨x, sx, rx⟩ := millis_near overhead hoa
      have n1 := near_le rx (by norm_num)
      have ha : |(overhead / 1000000 : ℚ)| = overhead / 1000000 := abs_of_nonneg (by positivity)
      rw [ha] at n1
      have n2 := abs_le.1 n1
      have hx : (1 : ℚ) / 2000000 ≤ x := by linarith
      have hx' : x ≤ 2 ^ 63 := by linarith
      have k4 := (fmt_consts hd).2.2.2
      have s1 := mul_stands hd hundred sx (by rw [abs_of_nonneg (by linarith)]; linarith [(by norm_num : 100 * (2 : ℚ) ^ 63 ≤ 2 ^ 100)])
      have r0 : RelNear (100 * x) (100 * x) 0 := by unfold RelNear; simp
      have r1 := r0.round le_rfl (by norm_num) (by right; rw [abs_of_nonneg (by linarith)]; linarith [(by norm_num : (1 : ℚ) / 2 ^ 200 ≤ 100 * (1 / 2000000))])
      have hpos : 0 < Fmt.double.srnd (100 * x) := by
        have h1 := near_le r1 (by norm_num)
        rw [abs_of_nonneg (by linarith : 0 ≤ 100 * x)] at h1
        have := abs_le.1 h1
        linarith
      rw [stands_eq s1 hpos]
      simp only [Fmt.div, if_true, hpos.ne', if_false]
      rfl
  rw [← key]
  exact ⟨_, rfl⟩

-- A section that took 1.5 of 4.5 ms, 1 ms of it itself, with 3 microseconds of overhead.
example : reportLine ⟨4500000, 1500000, 1000000, 3000⟩ = b!"     2ms  33.33% (22.22% exclusive  0.20% overhead)" := by
  decide +kernel

-- All hypotheses of `C126_line` and of `C126_aligned` hold for it.
example : (reportLine ⟨4500000, 1500000, 1000000, 3000⟩).length = 51 :=
  C126_aligned _ (by norm_num) (by norm_num) (by norm_num) (by norm_num) (by norm_num) (by norm_num) (by norm_num)

-- A leaf that took all the time, to three significant digits: the last columns are wider.
example : reportLine ⟨4500000, 4500000, 4500000, 0⟩ = b!"     4ms 100.00% (100.00% exclusive  0.00% overhead)" := by decide +kernel

-- The report of a program that asks for it in a section that it enters for the first time.
example : (match (Profiler.reset b!"total" 0).start b!"work" 100 150 >>= fun p => p.report id reportLine id 2000000 with
    | .ok (.mk _ _ [(k, .mk _ v [(k', .mk _ v' [])])], _) =>
      decide (k = b!"total" ∧ v = b!"     2ms 100.00% (100.00% exclusive  0.00% overhead)" ∧
        k' = b!"work" ∧ v' = b!"     0ms   0.00% ( 0.00% exclusive   inf% overhead)")
    | _ => false) = true := by decide +kernel

end Flut
