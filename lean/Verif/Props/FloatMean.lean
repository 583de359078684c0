import Verif.Proofs.FloatLerp
import Verif.Props.Tools

/-! # Property theorems: averages and medians in floating-point arithmetic (C105) -/

namespace Flut

open Spec

/-! ### The mean -/

/-- The error of a sum of floating-point numbers, added from the left. -/
theorem foldl_add_err {f : Fmt} (hf : f = .double ∨ f = .single) {v : List Flt} {q : List ℚ} (h : List.Forall₂ (Stands f) v q)
    {x : Flt} {a : ℚ} (hx : Stands f x a)
    (hmax : (|a| + (q.map abs).sum) * (1 + 1 / 2 ^ f.prec) ^ v.length ≤ f.maxVal) :
    ∃ s, Stands f (v.foldl f.add x) s ∧
      |s - (a + q.sum)| ≤ ((1 + 1 / 2 ^ f.prec) ^ v.length - 1) * (|a| + (q.map abs).sum) := by
  obtain ⟨u, hu⟩ : ∃ u : ℚ, u = 1 / 2 ^ f.prec := ⟨_, rfl⟩
  have hu0 : 0 < u := by rw [hu]; positivity
  rw [← hu] at hmax ⊢
  induction h generalizing x a with
  | nil => exact ⟨a, hx, by simp⟩
  | @cons y b v q hy h ih =>
    simp only [List.map_cons, List.sum_cons, List.length_cons, List.foldl_cons] at hmax ⊢
    have hT : 0 ≤ (q.map abs).sum := List.sum_nonneg (by
      intro z hz; obtain ⟨w, -, rfl⟩ := List.mem_map.1 hz; exact abs_nonneg w)
    generalize (q.map abs).sum = T at hmax hT ih ⊢
    have hP : 1 ≤ (1 + u) ^ v.length := one_le_pow₀ (by linarith)
    rw [pow_succ] at hmax ⊢
    generalize (1 + u) ^ v.length = P at hmax hP ih ⊢
    have hab := abs_add_le a b
    have ha := abs_nonneg a
    have hb := abs_nonneg b
    have hW0 : 0 ≤ |a| + (|b| + T) := by linarith
    have hW : |a| + (|b| + T) ≤ f.maxVal := by
      refine le_trans ?_ hmax
      have h1 : 1 ≤ P * (1 + u) := by nlinarith
      exact le_mul_of_one_le_right hW0 h1
    have s1 := add_stands hf hx hy (by linarith)
    have e1 := srnd_rel (f := f) (prec_pos hf) (q := a + b) (multiple_add (binary_mul hx.binary) (binary_mul hy.binary))
    have e1' : |f.srnd (a + b) - (a + b)| ≤ (|a| + |b|) * u := by
      refine e1.trans ?_
      have : |a + b| / 2 ^ f.prec = |a + b| * u := by rw [hu]; ring
      rw [this]
      exact mul_le_mul_of_nonneg_right hab hu0.le
    generalize f.srnd (a + b) = c at s1 e1'
    have hc : |c| ≤ (|a| + |b|) * (1 + u) := by
      have t := abs_add_le (a + b) (c - (a + b))
      have e : a + b + (c - (a + b)) = c := by ring
      rw [e] at t
      linarith
    have hle : |c| + T ≤ (|a| + (|b| + T)) * (1 + u) := by
      have : T ≤ T * (1 + u) := le_mul_of_one_le_right hT (by linarith)
      linarith
    obtain ⟨s, hs, he⟩ := ih s1 (by
      refine le_trans (mul_le_mul_of_nonneg_right hle (by linarith)) (le_of_eq_of_le ?_ hmax)
      ring)
    refine ⟨s, hs, ?_⟩
    have t := abs_add_le (s - (c + q.sum)) (c - (a + b))
    have e : s - (c + q.sum) + (c - (a + b)) = s - (a + (b + q.sum)) := by ring
    rw [e] at t
    have h2 : (P - 1) * (|c| + T) ≤ (P - 1) * ((|a| + (|b| + T)) * (1 + u)) := mul_le_mul_of_nonneg_left hle (by linarith)
    have h3 : (|a| + |b|) * u ≤ (|a| + (|b| + T)) * u := mul_le_mul_of_nonneg_right (by linarith) hu0.le
    have h4 : (P - 1) * ((|a| + (|b| + T)) * (1 + u)) + (|a| + (|b| + T)) * u = (P * (1 + u) - 1) * (|a| + (|b| + T)) := by ring
    linarith

theorem mean_arith {s S T n u P V e : ℚ} (hn : 0 < n) (hu : 0 < u) (hS : |S| ≤ T) (hP : 1 ≤ P)
    (h : |s - S| ≤ (P - 1) * T) (hV : |V - s / n| ≤ |s / n| * u + e) :
    |V - S / n| ≤ (P * (1 + u) - 1) * (T / n) + e := by
  have hs : |s| ≤ P * T := by
    have t := abs_add_le S (s - S)
    have e : S + (s - S) = s := by ring
    rw [e] at t
    linarith
  have t := abs_add_le (V - s / n) (s / n - S / n)
  have e1 : V - s / n + (s / n - S / n) = V - S / n := by ring
  rw [e1] at t
  have h1 : |s / n - S / n| ≤ (P - 1) * (T / n) := by
    rw [← sub_div, abs_div, abs_of_pos hn, ← mul_div_assoc]
    exact div_le_div_of_nonneg_right h hn.le
  have h2 : |s / n| * u ≤ P * (T / n) * u := by
    refine mul_le_mul_of_nonneg_right ?_ hu.le
    rw [abs_div, abs_of_pos hn, ← mul_div_assoc]
    exact div_le_div_of_nonneg_right hs hn.le
  have h3 : (P - 1) * (T / n) + P * (T / n) * u = (P * (1 + u) - 1) * (T / n) := by ring
  linarith

theorem abs_sum_le (q : List ℚ) : |q.sum| ≤ (q.map abs).sum := by
  induction q with
  | nil => simp
  | cons a q ih =>
    simp only [List.map_cons, List.sum_cons]
    exact (abs_add_le _ _).trans (by linarith)

theorem nat_stands {f : Fmt} (hf : f = .double ∨ f = .single) {n : Nat} (h : n < 2 ^ f.prec) : Stands f (f.ofRat n) n := by
  have hn0 : (0 : ℚ) ≤ n := by positivity
  have hb : IsBinary f.prec f.emin n := by
    refine ⟨n, 0, ?_, ?_, by simp⟩
    · rw [abs_of_nonneg (by positivity)]; exact_mod_cast h
    · rcases hf with rfl | rfl <;> decide
  have hp : (2 : ℚ) ^ f.prec ≤ 2 ^ 100 := by
    rcases hf with rfl | rfl <;> exact pow_le_pow_right₀ (by norm_num) (by decide)
  have hn : (n : ℚ) ≤ f.maxVal := by
    have : (n : ℚ) ≤ 2 ^ f.prec := by exact_mod_cast h.le
    linarith [(fmt_consts hf).2.2.2]
  have := result_stands hf false (q := (n : ℚ)) (by rw [abs_of_nonneg hn0]; exact hn)
  rwa [Fmt.srnd_self (prec_pos hf) hb] at this

/-- The average of `n` values differs from their mean by at most about `n` units of the last place of the mean magnitude, if the sum
of the magnitudes does not overflow. -/
theorem C105_average_partial (f : Fmt) (hf : f = .double ∨ f = .single) (v : List Flt) (q : List ℚ) (hv : List.Forall₂ (Stands f) v q)
    (h0 : v ≠ []) (hn : v.length < 2 ^ f.prec) (hmax : (q.map abs).sum * (1 + 1 / 2 ^ f.prec) ^ v.length ≤ f.maxVal) :
    ∃ a, Stands f (FloatMath.average f v) a ∧
      |a - q.sum / q.length| ≤ ((1 + 1 / 2 ^ f.prec) ^ v.length - 1) * ((q.map abs).sum / q.length) + 2 ^ f.emin / 2 := by
  have hu0 : (0 : ℚ) < 1 / 2 ^ f.prec := by positivity
  have hl := hv.length_eq
  cases hv with
  | nil => exact absurd rfl h0
  | @cons x a v q hx hv =>
    have z := add_stands hf (zero_stands f hf false) hx (by rw [zero_add]; exact hx.abs_le)
    rw [zero_add, Fmt.srnd_self (prec_pos hf) hx.binary] at z
    have hS := abs_sum_le (a :: q)
    have hN := nat_stands hf hn
    simp only [List.map_cons, List.sum_cons, List.length_cons] at hmax hS hN hl ⊢
    have hT0 : 0 ≤ |a| + (q.map abs).sum := (abs_nonneg _).trans hS
    have hP : 1 ≤ (1 + 1 / (2 : ℚ) ^ f.prec) ^ v.length := one_le_pow₀ (by linarith)
    have hmono : (|a| + (q.map abs).sum) * (1 + 1 / 2 ^ f.prec) ^ v.length ≤
        (|a| + (q.map abs).sum) * (1 + 1 / 2 ^ f.prec) ^ (v.length + 1) :=
      mul_le_mul_of_nonneg_left (pow_le_pow_right₀ (by linarith) (by omega)) hT0
    obtain ⟨s, hs, he⟩ := foldl_add_err hf hv z (hmono.trans hmax)
    have hq : (q.length : ℚ) = v.length := by exact_mod_cast (by omega : q.length = v.length)
    have hnpos : (1 : ℚ) ≤ ((v.length + 1 : Nat) : ℚ) := by exact_mod_cast (by omega : 1 ≤ v.length + 1)
    have hsabs := hs.abs_le
    have hdiv : |s / ((v.length + 1 : Nat) : ℚ)| ≤ f.maxVal := by
      rw [abs_div, abs_of_pos (a := ((v.length + 1 : Nat) : ℚ)) (by linarith)]
      exact (div_le_self (abs_nonneg _) hnpos).trans hsabs
    have d := div_stands hf hs hN (by linarith) hdiv
    refine ⟨f.srnd (s / ((v.length + 1 : Nat) : ℚ)), ?_, ?_⟩
    · unfold FloatMath.average
      rw [List.foldl_cons, List.length_cons]
      exact d
    · have e := srnd_err (f := f) (s / ((v.length + 1 : Nat) : ℚ))
      have e' : |s / ((v.length + 1 : Nat) : ℚ)| / 2 ^ f.prec = |s / ((v.length + 1 : Nat) : ℚ)| * (1 / 2 ^ f.prec) := by ring
      rw [e'] at e
      have hw : ((q.length + 1 : Nat) : ℚ) = ((v.length + 1 : Nat) : ℚ) := by push_cast; rw [hq]
      rw [hw, pow_succ]
      exact mean_arith (by linarith) hu0 hS hP he e

/-- The average of no values is not a number. -/
theorem C105_average_empty (f : Fmt) (hf : f = .double ∨ f = .single) : ∃ s, FloatMath.average f [] = .nan s := by
  rcases hf with rfl | rfl <;> exact ⟨false, by decide +kernel⟩

/-- The average of equal values may be a number above all of them. -/
theorem C105_between_refuted : ∃ x a : Flt, FloatMath.average .double [x, x, x] = a ∧ Below x a ∧ IsFloat .double x :=
  ⟨.fin false (3602879701896397 / 2 ^ 55), _, rfl, lt_iff.1 (by decide +kernel),
    (stands_double false (n := 3602879701896397) (e := 55) (by norm_num) (by norm_num)).1⟩

/-- The average of large finite values may be infinite. -/
theorem C105_average_overflow_refuted (f : Fmt) (hf : f = .double ∨ f = .single) :
    FloatMath.average f [.fin false f.maxVal, .fin false f.maxVal] = .inf false := by
  rcases hf with rfl | rfl <;> decide +kernel

/-! ### The median -/

theorem forall₂_val {f : Fmt} {v : List Flt} {q : List ℚ} (h : List.Forall₂ (Stands f) v q) :
    q = v.map Flt.val ∧ ∀ x ∈ v, Stands f x x.val := by
  induction h with
  | nil => simp
  | @cons x a v q hx h ih =>
    obtain ⟨s, m, rfl, hm⟩ := hx.fin
    refine ⟨by rw [List.map_cons, hm, ih.1], ?_⟩
    intro y hy
    rcases List.mem_cons.1 hy with rfl | hy
    · rw [hm]; exact hx
    · exact ih.2 y hy

theorem sortedCopy_val {f : Fmt} {v : List Flt} (h : ∀ x ∈ v, Stands f x x.val) :
    (FloatMath.sortedCopy v).map Flt.val = Tools.sortedCopy (v.map Flt.val) := by
  unfold FloatMath.sortedCopy Tools.sortedCopy
  exact List.map_insertionSort _ _ _ _ fun a ha b hb => le_stands (h a ha) (h b hb)

/-- Half the rounded sum of two numbers is the number that is nearest to half their sum: there is no second rounding error. -/
theorem half_sum_nearest {f : Fmt} (hf : f = .double ∨ f = .single) {a b : ℚ} (ha : IsBinary f.prec f.emin a)
    (hb : IsBinary f.prec f.emin b) : Nearest (IsBinary f.prec f.emin) ((a + b) / 2) (f.srnd (f.srnd (a + b) / 2)) := by
  have hp := prec_pos hf
  obtain ⟨k, hk⟩ := multiple_add (binary_mul ha) (binary_mul hb)
  rcases lt_or_ge |k| (2 ^ f.prec) with hlt | hge
  · rw [Fmt.srnd_self hp (q := a + b) ⟨k, f.emin, hlt, le_rfl, hk⟩]
    exact Fmt.srnd_nearest hp _
  · have hn := Fmt.srnd_nearest hp (a + b)
    have hz : (0 : ℚ) < 2 ^ f.emin := by positivity
    -- the rounded sum is at least as large as the first number with an exponent above the least
    have hbig : IsBinary f.prec f.emin (2 ^ f.prec * 2 ^ f.emin) := by
      refine ⟨1, f.prec + f.emin, ?_, by omega, ?_⟩
      · rw [abs_one]; exact one_lt_pow₀ (by norm_num) (by omega)
      · rw [zpow_add₀ (by norm_num), zpow_natCast]; simp
    have hle : (2 : ℚ) ^ f.prec * 2 ^ f.emin ≤ |a + b| := by
      rw [hk, abs_mul, abs_of_pos hz]
      refine mul_le_mul_of_nonneg_right ?_ hz.le
      exact_mod_cast hge
    have habs : (2 : ℚ) ^ f.prec * 2 ^ f.emin ≤ |f.srnd (a + b)| := by
      rw [Fmt.abs_srnd, ← Fmt.srnd_nonneg (abs_nonneg _)]
      exact Fmt.le_srnd hp hbig hle
    obtain ⟨m, e, hm, he, hme⟩ := hn.1
    have hlt : f.emin < e := by
      rcases he.eq_or_lt with h | h
      · exfalso
        rw [hme, ← h, abs_mul, abs_of_pos hz] at habs
        have : (2 : ℚ) ^ f.prec ≤ |(m : ℚ)| := le_of_mul_le_mul_right habs hz
        have : (2 : ℤ) ^ f.prec ≤ |m| := by exact_mod_cast this
        omega
      · exact h
    have hhalf : IsBinary f.prec f.emin (f.srnd (a + b) / 2) := by
      refine ⟨m, e - 1, hm, by omega, ?_⟩
      rw [hme, zpow_sub₀ (by norm_num), zpow_one, mul_div_assoc]
    rw [Fmt.srnd_self hp hhalf]
    refine ⟨hhalf, fun z hz => ?_⟩
    have := hn.2 (2 * z) (binary_double hz)
    have e1 : f.srnd (a + b) / 2 - (a + b) / 2 = (f.srnd (a + b) - (a + b)) / 2 := by ring
    have e2 : z - (a + b) / 2 = (2 * z - (a + b)) / 2 := by ring
    rw [e1, e2, abs_div, abs_div]
    exact div_le_div_of_nonneg_right this (abs_nonneg _)

/-- The median of finite values is the exact median, or the number of the format that is nearest to it, if the sum of the two values in
the middle does not overflow. It lies between these two values. -/
theorem C105_median_partial (f : Fmt) (hf : f = .double ∨ f = .single) (vec : List Flt) (q : List ℚ)
    (hv : List.Forall₂ (Stands f) vec q) :
    (vec = [] → FloatMath.median f vec = .throws .assertion) ∧
    (∀ k, vec.length = 2 * k + 1 → ∃ x r, IsKth q k x ∧ FloatMath.median f vec = .ok r ∧ r ∈ vec ∧ Stands f r x) ∧
    (∀ k, vec.length = 2 * k + 2 → ∃ x y, IsKth q k x ∧ IsKth q (k + 1) y ∧ (|x + y| ≤ f.maxVal →
      ∃ r m, FloatMath.median f vec = .ok r ∧ Stands f r m ∧ Nearest (IsBinary f.prec f.emin) ((x + y) / 2) m ∧
        x ≤ m ∧ m ≤ y)) := by
  obtain ⟨hq, hs⟩ := forall₂_val hv
  have hsort := sortedCopy_val hs
  rw [← hq] at hsort
  have hp := sortedCopy_perm q
  have hso := sortedCopy_sorted q
  have hl := hp.length_eq
  have hlen := hv.length_eq
  have hfl : (FloatMath.sortedCopy vec).length = vec.length := List.length_insertionSort _ _
  have hperm : (FloatMath.sortedCopy vec).Perm vec := List.perm_insertionSort _ _
  have get : ∀ k (h : k < vec.length), ∃ r, (FloatMath.sortedCopy vec)[k]? = some r ∧ r ∈ vec ∧
      ∃ h' : k < (Tools.sortedCopy q).length, Stands f r (Tools.sortedCopy q)[k] := by
    intro k h
    have h1 : k < (FloatMath.sortedCopy vec).length := by omega
    refine ⟨(FloatMath.sortedCopy vec)[k], List.getElem?_eq_getElem h1, hperm.subset (List.getElem_mem h1), by omega, ?_⟩
    have : (Tools.sortedCopy q)[k]'(by omega) = (FloatMath.sortedCopy vec)[k].val := by
      simp only [← hsort, List.getElem_map]
    rw [this]
    exact hs _ (hperm.subset (List.getElem_mem h1))
  refine ⟨?_, ?_, ?_⟩
  · rintro rfl; rfl
  · intro k hk
    obtain ⟨r, h1, h2, h3, h4⟩ := get k (by omega)
    refine ⟨_, r, isKth_of_sorted _ _ hp hso k h3, ?_, h2, h4⟩
    unfold FloatMath.median
    rw [if_pos (by omega)]
    simp only [show vec.length % 2 = 1 by omega, if_true, show vec.length / 2 = k by omega, h1]
  · intro k hk
    obtain ⟨r, h1, -, h3, h4⟩ := get k (by omega)
    obtain ⟨r', h1', -, h3', h4'⟩ := get (k + 1) (by omega)
    refine ⟨_, _, isKth_of_sorted _ _ hp hso k h3, isKth_of_sorted _ _ hp hso (k + 1) h3', ?_⟩
    have hxy : (Tools.sortedCopy q)[k] ≤ (Tools.sortedCopy q)[k + 1] := List.pairwise_iff_getElem.1 hso k (k + 1) h3 h3' (by omega)
    generalize (Tools.sortedCopy q)[k] = x at h4 hxy
    generalize (Tools.sortedCopy q)[k + 1] = y at h4' hxy
    intro hmax
    have s1 := add_stands hf h4' h4 (by rw [add_comm]; exact hmax)
    have htwo : Stands f (.fin false 2) 2 := by
      have h2 := pow_binary hf 1
      rw [pow_one] at h2
      exact ⟨⟨by norm_num, by linarith [(fmt_consts hf).2.2.2, (by norm_num : (2 : ℚ) ≤ 2 ^ 100)], h2⟩, rfl⟩
    have s2 := div_stands hf s1 htwo (by norm_num) (by
      rw [abs_div, abs_two]
      exact (div_le_self (abs_nonneg _) (by norm_num)).trans s1.abs_le)
    rw [add_comm y x] at s2
    refine ⟨_, _, ?_, s2, half_sum_nearest hf h4.binary h4'.binary, ?_, ?_⟩
    · unfold FloatMath.median
      rw [if_pos (by omega)]
      simp only [show ¬ (vec.length % 2 = 1) by omega, if_false, show vec.length / 2 = k + 1 by omega, Nat.add_sub_cancel, h1, h1']
    · refine Fmt.le_srnd (prec_pos hf) h4.binary ?_
      have := Fmt.le_srnd (prec_pos hf) (q := x + y) (binary_double h4.binary) (by linarith)
      linarith
    · refine Fmt.srnd_le (prec_pos hf) h4'.binary ?_
      have := Fmt.srnd_le (prec_pos hf) (q := x + y) (binary_double h4'.binary) (by linarith)
      linarith

/-- The median of two large finite values is infinite. -/
theorem C105_median_overflow_refuted (f : Fmt) (hf : f = .double ∨ f = .single) :
    FloatMath.median f [.fin false f.maxVal, .fin false f.maxVal] = .ok (.inf false) := by
  rcases hf with rfl | rfl <;> decide +kernel

/-- Values that the theorems apply to, with the results. -/
example : List.Forall₂ (Stands .double) [.fin false (7 / 2 ^ 1), .fin true (1 / 2 ^ 0), .fin false (4 / 2 ^ 0), .fin false (1 / 2 ^ 2)]
      [7 / 2 ^ 1, -(1 / 2 ^ 0), 4 / 2 ^ 0, 1 / 2 ^ 2] ∧
    (([7 / 2 ^ 1, -(1 / 2 ^ 0), 4 / 2 ^ 0, 1 / 2 ^ 2] : List ℚ).map abs).sum * (1 + 1 / 2 ^ Fmt.double.prec) ^ 4 ≤ Fmt.double.maxVal ∧
    FloatMath.average .double [.fin false (7 / 2 ^ 1), .fin true (1 / 2 ^ 0), .fin false (4 / 2 ^ 0), .fin false (1 / 2 ^ 2)] =
      .fin false (27 / 16) ∧
    FloatMath.median .double [.fin false (7 / 2 ^ 1), .fin true (1 / 2 ^ 0), .fin false (4 / 2 ^ 0), .fin false (1 / 2 ^ 2)] =
      .ok (.fin false (15 / 8)) := by
  refine ⟨?_, by decide +kernel, by decide +kernel, by decide +kernel⟩
  have h1 := stands_double false (n := 7) (e := 1) (by norm_num) (by norm_num)
  have h2 := stands_double true (n := 1) (e := 0) (by norm_num) (by norm_num)
  have h3 := stands_double false (n := 4) (e := 0) (by norm_num) (by norm_num)
  have h4 := stands_double false (n := 1) (e := 2) (by norm_num) (by norm_num)
  simp only [Bool.false_eq_true, if_false, if_true, Nat.cast_ofNat, Nat.cast_one] at h1 h2 h3 h4
  exact .cons h1 (.cons h2 (.cons h3 (.cons h4 .nil)))

end Flut
