import Verif.Proofs.FloatRoot

/-! # Sums of products, lengths and scaling in floating-point arithmetic -/

namespace Flut

open Spec FloatMath

/-- `y` is a term `t`, rounded. -/
structure Term (f : Fmt) (y : Flt) (p t : ℚ) : Prop where
  stands : Stands f y p
  err : |p - t| ≤ |t| / 2 ^ f.prec + 2 ^ f.emin / 2

/-- `y` is a sum, computed; `S` is the exact sum and `T` the sum of the magnitudes of the terms. -/
structure Acc (f : Fmt) (c d : ℚ) (y : Flt) (r S T : ℚ) : Prop where
  stands : Stands f y r
  abs : |S| ≤ T
  err : |r - S| ≤ c * (T / 2 ^ f.prec) + d * 2 ^ f.emin

theorem mul_term {f : Fmt} (hf : f = .double ∨ f = .single) {x y : Flt} {a b : ℚ} (hx : Stands f x a) (hy : Stands f y b)
    (h : |a * b| ≤ f.maxVal / 2) : Term f (f.mul x y) (f.srnd (a * b)) (a * b) :=
  ⟨mul_stands hf hx hy (by linarith [abs_nonneg (a * b)]), srnd_err _⟩

theorem neg_stands {f : Fmt} {x : Flt} {a : ℚ} (hx : Stands f x a) : Stands f x.neg (-a) := by
  obtain ⟨s, m, rfl, rfl⟩ := hx.fin
  refine ⟨hx.1, ?_⟩
  show (Flt.fin (!s) m).pos = _
  rw [pos_fin, neg_val]

theorem Term.neg {f : Fmt} {y : Flt} {p t : ℚ} (h : Term f y p t) : Term f y.neg (-p) (-t) := by
  refine ⟨neg_stands h.stands, ?_⟩
  rw [neg_sub_neg, abs_sub_comm, abs_neg]
  exact h.err

theorem Term.acc {f : Fmt} {y : Flt} {p t : ℚ} (h : Term f y p t) : Acc f 1 1 y p t |t| := by
  refine ⟨h.stands, le_rfl, ?_⟩
  have := h.err
  have := Fmt.pow_pos f.emin
  linarith

/-- Adding one more term. -/
theorem Acc.step {f : Fmt} (hf : f = .double ∨ f = .single) {c d : ℚ} {y z : Flt} {r S T p t : ℚ} (h : Acc f c d y r S T)
    (hz : Term f z p t) (hT : T + |t| ≤ f.maxVal / 2) (hc1 : 1 ≤ c) (hc : c ≤ 10) (hd0 : 0 ≤ d) (hd : d ≤ 10) :
    Acc f (c + 1001 / 1000) (d + 1) (f.add y z) (f.srnd (r + p)) (S + t) (T + |t|) := by
  obtain ⟨h24, hn0, hn, hM⟩ := fmt_consts hf
  obtain ⟨hy, hS, he⟩ := h
  obtain ⟨hz, ht⟩ := hz
  have hu0 : (0 : ℚ) < 1 / 2 ^ f.prec := by positivity
  have hu : 1 / (2 : ℚ) ^ f.prec ≤ 1 / 16777216 := by
    apply one_div_le_one_div_of_le (by norm_num)
    norm_num at h24 ⊢; exact h24
  rw [div_eq_mul_one_div] at he ht
  have e0 : (T + |t|) / 2 ^ f.prec = (T + |t|) * (1 / 2 ^ f.prec) := div_eq_mul_one_div _ _
  have hrel : |f.srnd (r + p) - (r + p)| ≤ |r + p| * (1 / 2 ^ f.prec) := by
    rw [← div_eq_mul_one_div]
    exact srnd_rel (prec_pos hf) (multiple_add (binary_mul hy.binary) (binary_mul hz.binary))
  generalize 1 / (2 : ℚ) ^ f.prec = u at *
  generalize hη : (2 : ℚ) ^ f.emin = η at *
  have hT0 : 0 ≤ T := (abs_nonneg S).trans hS
  have ht0 := abs_nonneg t
  have hTu : T * u ≤ T / 16777216 := by nlinarith
  have htu : |t| * u ≤ |t| / 16777216 := by nlinarith
  have hTu0 : 0 ≤ T * u := by positivity
  have htu0 : 0 ≤ |t| * u := by positivity
  have hcT : c * (T * u) ≤ 10 * (T * u) := mul_le_mul_of_nonneg_right hc hTu0
  have hdn : d * η ≤ 10 * η := mul_le_mul_of_nonneg_right hd hn0.le
  have hη1 : η ≤ 1 := by linarith [(by norm_num : (1 : ℚ) / 2 ^ 100 ≤ 1)]
  have hM1 : (100 : ℚ) ≤ f.maxVal := by linarith [(by norm_num : (100 : ℚ) ≤ 2 ^ 100)]
  have hsum : |r + p| ≤ |r - S| + |p - t| + (T + |t|) := by
    have e : r + p = (r - S) + (p - t) + (S + t) := by ring
    have h1 := abs_add_three (r - S) (p - t) (S + t)
    have h2 := abs_add_le S t
    rw [← e] at h1
    linarith
  have hdiff : |r + p - (S + t)| ≤ |r - S| + |p - t| := by
    have e : r + p - (S + t) = (r - S) + (p - t) := by ring
    rw [e]; exact abs_add_le _ _
  refine ⟨add_stands hf hy hz ?_, (abs_add_le S t).trans (by linarith), ?_⟩
  · linarith
  · have h3 := abs_sub_le (f.srnd (r + p)) (r + p) (S + t)
    rw [e0]
    have hA : |r - S| * u ≤ (10 * (T / 16777216) + 10 * η) * u := mul_le_mul_of_nonneg_right (by linarith) hu0.le
    have hB : |p - t| * u ≤ (|t| / 16777216 + η / 2) * u := mul_le_mul_of_nonneg_right (by linarith) hu0.le
    have hC : |r + p| * u ≤ |r - S| * u + |p - t| * u + (T * u + |t| * u) := by
      have := mul_le_mul_of_nonneg_right hsum hu0.le
      linarith
    have hηu : η * u ≤ η / 16777216 := by nlinarith
    have hct : |t| * u ≤ c * (|t| * u) := le_mul_of_one_le_left htu0 hc1
    have hdd : 0 ≤ d * η := by positivity
    nlinarith

/-- A close number has a close root. -/
theorem root_close {r S ε : ℝ} (hS : 0 ≤ S) (hr : 0 ≤ r) (h : |r - S| ≤ ε * S) (hε : ε ≤ 1 / 100) :
    |√r - √S| ≤ 51 / 100 * ε * √S := by
  have e1 := Real.mul_self_sqrt hS
  have e2 := Real.mul_self_sqrt hr
  have p1 := Real.sqrt_nonneg S
  have p2 := Real.sqrt_nonneg r
  generalize √S = a at *
  generalize √r = b at *
  subst e1; subst e2
  have h' := abs_le.1 h
  rcases p1.eq_or_lt with rfl | ha
  · have : b = 0 := by nlinarith
    subst this; simp
  have hε0 : 0 ≤ ε := by
    by_contra hc
    have := abs_nonneg (b * b - a * a)
    have : ε * (a * a) < 0 := mul_neg_of_neg_of_pos (not_le.1 hc) (by positivity)
    linarith
  have hb : (1 - ε) * a ≤ b := by
    by_contra hc
    have hc := not_le.1 hc
    have : b * b < (1 - ε) * a * ((1 - ε) * a) := mul_self_lt_mul_self p2 hc
    nlinarith [mul_nonneg hε0 (mul_self_nonneg a)]
  have e : b * b - a * a = (b - a) * (b + a) := by ring
  rw [e, abs_mul, abs_of_pos (by linarith : 0 < b + a)] at h
  have h2 : |b - a| * ((2 - ε) * a) ≤ ε * (a * a) := by
    refine le_trans ?_ h
    exact mul_le_mul_of_nonneg_left (by linarith) (abs_nonneg _)
  have h3 : |b - a| * (2 - ε) ≤ ε * a := by
    have : |b - a| * (2 - ε) * a ≤ ε * a * a := by linarith
    exact le_of_mul_le_mul_right this ha
  have h4 : |b - a| * (199 / 100) ≤ |b - a| * (2 - ε) := mul_le_mul_of_nonneg_left (by linarith) (abs_nonneg _)
  nlinarith [mul_nonneg hε0 ha.le]

/-- The root of a computed sum. -/
theorem Acc.root {f : Fmt} (hf : f = .double ∨ f = .single) {c d : ℚ} {y : Flt} {r S : ℚ} (h : Acc f c d y r S S)
    (hS : 2 ^ (f.prec + 10) * 2 ^ f.emin ≤ S) (hc0 : 1 ≤ c) (hc : c ≤ 5) (hd0 : 0 ≤ d) (hd : d ≤ 5) :
    0 < r ∧ |(f.rndRoot r : ℝ) - √(S : ℝ)| ≤ (51 / 100 * (c + 1 / 200) + 1001 / 1000) * (√(S : ℝ) / 2 ^ f.prec) := by
  obtain ⟨h24, hn0, hn, hM⟩ := fmt_consts hf
  obtain ⟨hy, hSS, he⟩ := h
  have hP : (0 : ℚ) < 2 ^ f.prec := by positivity
  have hS0 : 0 < S := lt_of_lt_of_le (by positivity) hS
  have hη : 2 ^ f.emin ≤ S / 2 ^ f.prec / 1024 := by
    rw [pow_add] at hS
    rw [le_div_iff₀ (by norm_num), le_div_iff₀ hP]
    linarith
  have hu : S / 2 ^ f.prec ≤ S / 16777216 := by
    apply div_le_div_of_nonneg_left hS0.le (by norm_num)
    norm_num at h24 ⊢; exact h24
  have hu0 : 0 < S / 2 ^ f.prec := by positivity
  have he2 : |r - S| ≤ (c + 1 / 200) * (S / 2 ^ f.prec) := by
    have : d * 2 ^ f.emin ≤ 5 * 2 ^ f.emin := mul_le_mul_of_nonneg_right hd hn0.le
    linarith
  have he3 : |r - S| ≤ S / 1000000 := by
    have : (c + 1 / 200) * (S / 2 ^ f.prec) ≤ 6 * (S / 2 ^ f.prec) := mul_le_mul_of_nonneg_right (by linarith) hu0.le
    linarith
  have hr : S / 2 ≤ r := by have := (abs_le.1 he3).1; linarith
  have hr0 : 0 < r := by linarith
  refine ⟨hr0, ?_⟩
  have hre : 2 ^ f.emin ≤ r := by linarith
  have h1 := f.rndRoot_rel hf hre
  have hSR : (0 : ℝ) ≤ S := by exact_mod_cast hS0.le
  have hrR : (0 : ℝ) ≤ r := by exact_mod_cast hr0.le
  have heR : |(r : ℝ) - S| ≤ ((c : ℝ) + 1 / 200) / 2 ^ f.prec * S := by
    have : ((|r - S| : ℚ) : ℝ) ≤ (((c + 1 / 200) * (S / 2 ^ f.prec) : ℚ) : ℝ) := by exact_mod_cast he2
    push_cast at this
    refine this.trans (le_of_eq ?_)
    ring
  have h24R : (16777216 : ℝ) ≤ 2 ^ f.prec := by
    have : ((16777216 : ℚ) : ℝ) ≤ ((2 ^ f.prec : ℚ) : ℝ) := by
      norm_num at h24; exact_mod_cast h24
    push_cast at this; exact this
  have hcR : (c : ℝ) ≤ 5 := by exact_mod_cast hc
  have hcR0 : (1 : ℝ) ≤ c := by exact_mod_cast hc0
  have hε : ((c : ℝ) + 1 / 200) / 2 ^ f.prec ≤ 6 / 16777216 := by
    apply div_le_div₀ (by norm_num) (by linarith) (by norm_num) h24R
  have h2 := root_close hSR hrR heR (hε.trans (by norm_num))
  have hs0 := Real.sqrt_nonneg (S : ℝ)
  have hPR : (0 : ℝ) < 2 ^ f.prec := by positivity
  have h3 : √(r : ℝ) ≤ 1000001 / 1000000 * √(S : ℝ) := by
    have := (abs_le.1 h2).2
    have : 51 / 100 * (((c : ℝ) + 1 / 200) / 2 ^ f.prec) * √(S : ℝ) ≤ 51 / 100 * (6 / 16777216) * √(S : ℝ) := by
      apply mul_le_mul_of_nonneg_right _ hs0
      linarith
    linarith
  have h4 : √(r : ℝ) / 2 ^ f.prec ≤ 1001 / 1000 * (√(S : ℝ) / 2 ^ f.prec) := by
    rw [← mul_div_assoc]
    apply div_le_div_of_nonneg_right _ hPR.le
    linarith
  have h5 := abs_sub_le (f.rndRoot r : ℝ) (√(r : ℝ)) (√(S : ℝ))
  have e : 51 / 100 * (((c : ℝ) + 1 / 200) / 2 ^ f.prec) * √(S : ℝ) = 51 / 100 * (c + 1 / 200) * (√(S : ℝ) / 2 ^ f.prec) := by ring
  rw [e] at h2
  linarith

theorem prec_real {f : Fmt} (hf : f = .double ∨ f = .single) : (16777216 : ℝ) ≤ 2 ^ f.prec := by
  have h24 := (fmt_consts hf).1
  have : ((16777216 : ℚ) : ℝ) ≤ ((2 ^ f.prec : ℚ) : ℝ) := by
    norm_num at h24; exact_mod_cast h24
  push_cast at this; exact this

/-- The inverse of a number that is neither very large nor very small. -/
theorem inv_err {f : Fmt} (hf : f = .double ∨ f = .single) {x : Flt} {l : ℚ} (hx : Stands f x l) (h0 : 0 < l)
    (h1 : l * l ≤ 2 * f.maxVal) (h2 : 2 ^ f.emin / 4 ≤ l * l) :
    Stands f (inv f x) (f.srnd (1 / l)) ∧ |f.srnd (1 / l) - 1 / l| ≤ 1 / l / 2 ^ f.prec := by
  have c1 : 2 * f.maxVal * (2 ^ f.prec * 2 ^ f.emin) ^ 2 ≤ 4 := by rcases hf with rfl | rfl <;> decide +kernel
  have c2 : 4 ≤ 2 ^ f.emin * (f.maxVal * f.maxVal) := by rcases hf with rfl | rfl <;> decide +kernel
  have hM : 0 < f.maxVal := by linarith [(fmt_consts hf).2.2.2, (by positivity : (0 : ℚ) < 2 ^ 100)]
  have hi : 0 < 1 / l := by positivity
  constructor
  · refine div_stands hf (one_stands hf) hx h0.ne' ?_
    rw [abs_of_pos hi, div_le_iff₀ h0]
    by_contra hc
    have hc := not_le.1 hc
    have a1 : f.maxVal * l * (f.maxVal * l) < 1 := by nlinarith [mul_pos hM h0]
    have a2 : 2 ^ f.emin / 4 * (f.maxVal * f.maxVal) ≤ l * l * (f.maxVal * f.maxVal) := mul_le_mul_of_nonneg_right h2 (by positivity)
    nlinarith
  · have := srnd_rel_normal (f := f) (q := 1 / l) ?_
    · rwa [abs_of_pos hi] at this
    · rw [abs_of_pos hi, ← mul_div_assoc, mul_one, le_div_iff₀ h0]
      have hN : (0 : ℚ) < 2 ^ f.prec * 2 ^ f.emin := by positivity
      generalize (2 : ℚ) ^ f.prec * 2 ^ f.emin = N at *
      by_contra hc
      have hc := not_le.1 hc
      have a1 : 2 * 2 < N * l * (N * l) := mul_self_lt_mul_self (by norm_num) hc
      have a2 : l * l * N ^ 2 ≤ 2 * f.maxVal * N ^ 2 := mul_le_mul_of_nonneg_right h1 (by positivity)
      nlinarith

/-- The inverse of a number that is right to `k` units. -/
theorem inv_close {f : Fmt} (hf : f = .double ∨ f = .single) {x : Flt} {l : ℚ} {L k : ℝ} (hx : Stands f x l) (h0 : 0 < l)
    (h1 : l * l ≤ 2 * f.maxVal) (h2 : 2 ^ f.emin / 4 ≤ l * l) (hL : 0 < L) (hk0 : 0 ≤ k) (hk : k ≤ 5)
    (h : |(l : ℝ) - L| ≤ k * (L / 2 ^ f.prec)) :
    ∃ i : ℚ, Stands f (inv f x) i ∧ |(i : ℝ) - 1 / L| ≤ (k + 1001 / 1000) * (1 / L / 2 ^ f.prec) := by
  obtain ⟨hi, he⟩ := inv_err hf hx h0 h1 h2
  refine ⟨_, hi, ?_⟩
  have heR : |(f.srnd (1 / l) : ℝ) - 1 / l| ≤ 1 / l / 2 ^ f.prec := by
    have : ((|f.srnd (1 / l) - 1 / l| : ℚ) : ℝ) ≤ ((1 / l / 2 ^ f.prec : ℚ) : ℝ) := by exact_mod_cast he
    push_cast at this ⊢; exact this
  have hl : (0 : ℝ) < l := by exact_mod_cast h0
  have hP := prec_real hf
  generalize (f.srnd (1 / l) : ℝ) = i at *
  generalize (l : ℝ) = l at *
  have hP0 : (0 : ℝ) < 2 ^ f.prec := by linarith
  have hu : 1 / (2 : ℝ) ^ f.prec ≤ 1 / 16777216 := one_div_le_one_div_of_le (by norm_num) hP
  have hu0 : 0 < 1 / (2 : ℝ) ^ f.prec := by positivity
  rw [div_eq_mul_one_div (1 / l)] at heR
  rw [div_eq_mul_one_div (1 / L)]
  rw [div_eq_mul_one_div L] at h
  generalize 1 / (2 : ℝ) ^ f.prec = u at *
  have hku : k * u ≤ 5 / 16777216 := by nlinarith
  have hku0 : 0 ≤ k * u := by positivity
  have hLk : |l - L| ≤ L * (k * u) := by linarith
  have b1 : L * (1 - k * u) ≤ l := by have := (abs_le.1 hLk).1; linarith
  have b2 : L * (999999 / 1000000) ≤ l := by
    refine le_trans (mul_le_mul_of_nonneg_left ?_ hL.le) b1
    linarith
  have d1 : |1 / l - 1 / L| ≤ 1 / L * (1000002 / 1000000 * (k * u)) := by
    have e : 1 / l - 1 / L = (L - l) / (l * L) := by field_simp
    rw [e, abs_div, abs_sub_comm, abs_of_pos (mul_pos hl hL), div_le_iff₀ (mul_pos hl hL)]
    have e2 : 1 / L * (1000002 / 1000000 * (k * u)) * (l * L) = 1000002 / 1000000 * (k * u) * l := by field_simp
    rw [e2]
    nlinarith
  have d2 : 1 / l ≤ 1 / L * (1000002 / 1000000) := by
    rw [div_mul_eq_mul_div, one_mul, div_le_div_iff₀ hl hL]
    nlinarith
  have d3 : 1 / l * u ≤ 1 / L * (1000002 / 1000000) * u := mul_le_mul_of_nonneg_right d2 hu0.le
  have hLi : 0 < 1 / L := by positivity
  have d4 := abs_sub_le i (1 / l) (1 / L)
  have hk5 : k * (1 / L * u) ≤ 5 * (1 / L * u) := mul_le_mul_of_nonneg_right hk (by positivity)
  nlinarith

/-- A component, scaled. -/
theorem scale_close {f : Fmt} (hf : f = .double ∨ f = .single) {x y : Flt} {a i : ℚ} {L k : ℝ} (hx : Stands f x a)
    (hy : Stands f y i) (hL : 0 < L) (ha : |(a : ℝ)| ≤ L) (hk0 : 0 ≤ k) (hk : k ≤ 5)
    (h : |(i : ℝ) - 1 / L| ≤ k * (1 / L / 2 ^ f.prec)) :
    ∃ p : ℚ, Stands f (f.mul x y) p ∧
      |(p : ℝ) - a / L| ≤ (k + 1001 / 1000) * (|(a : ℝ)| / L / 2 ^ f.prec) + 2 ^ f.emin / 2 := by
  obtain ⟨h24, hn0, hn, hM⟩ := fmt_consts hf
  have hP := prec_real hf
  have hP0 : (0 : ℝ) < 2 ^ f.prec := by linarith
  have hu : 1 / (2 : ℝ) ^ f.prec ≤ 1 / 16777216 := one_div_le_one_div_of_le (by norm_num) hP
  have hu0 : 0 < 1 / (2 : ℝ) ^ f.prec := by positivity
  have hLi : 0 < 1 / L := by positivity
  have hA0 : 0 ≤ |(a : ℝ)| / L := by positivity
  have hA1 : |(a : ℝ)| / L ≤ 1 := (div_le_one hL).2 ha
  have e1 : k * (1 / L / 2 ^ f.prec) = 1 / L * (k * (1 / 2 ^ f.prec)) := by ring
  have e2 : (k + 1001 / 1000) * (|(a : ℝ)| / L / 2 ^ f.prec) = |(a : ℝ)| / L * ((k + 1001 / 1000) * (1 / 2 ^ f.prec)) := by ring
  rw [e1] at h
  rw [e2]
  have hku : k * (1 / (2 : ℝ) ^ f.prec) ≤ 5 / 16777216 := by nlinarith
  have hprod : |(a : ℝ) * i - a / L| ≤ |(a : ℝ)| / L * (k * (1 / 2 ^ f.prec)) := by
    have e : (a : ℝ) * i - a / L = a * (i - 1 / L) := by ring
    rw [e, abs_mul]
    refine (mul_le_mul_of_nonneg_left h (abs_nonneg _)).trans (le_of_eq ?_)
    ring
  have habs : |(a : ℝ) * i| ≤ |(a : ℝ)| / L * (1000001 / 1000000) := by
    have t1 := abs_sub_abs_le_abs_sub ((a : ℝ) * i) (a / L)
    rw [abs_div (a : ℝ) L, abs_of_pos hL] at t1
    have t2 : |(a : ℝ)| / L * (k * (1 / 2 ^ f.prec)) ≤ |(a : ℝ)| / L * (5 / 16777216) := mul_le_mul_of_nonneg_left hku hA0
    linarith
  refine ⟨f.srnd (a * i), mul_stands hf hx hy ?_, ?_⟩
  · have t : |(a : ℝ) * i| ≤ 2 := by nlinarith
    have t : ((|a * i| : ℚ) : ℝ) ≤ ((2 : ℚ) : ℝ) := by push_cast; exact t
    have t : |a * i| ≤ 2 := by exact_mod_cast t
    linarith [(by norm_num : (2 : ℚ) ≤ 2 ^ 100)]
  · have t := srnd_err (f := f) (a * i)
    have t : ((|f.srnd (a * i) - a * i| : ℚ) : ℝ) ≤ ((|a * i| / 2 ^ f.prec + 2 ^ f.emin / 2 : ℚ) : ℝ) := by exact_mod_cast t
    push_cast at t
    have t3 := abs_sub_le (f.srnd (a * i) : ℝ) (a * i) (a / L)
    have t4 : |(a : ℝ) * i| / 2 ^ f.prec ≤ |(a : ℝ)| / L * (1001 / 1000 * (1 / 2 ^ f.prec)) := by
      rw [div_eq_mul_one_div]
      have := mul_le_mul_of_nonneg_right habs hu0.le
      refine this.trans ?_
      rw [mul_assoc]
      apply mul_le_mul_of_nonneg_left _ hA0
      apply mul_le_mul_of_nonneg_right _ hu0.le
      norm_num
    nlinarith

/-- The root of a rounded square is the number. -/
theorem root_of_square {f : Fmt} (hf : f = .double ∨ f = .single) {a : ℚ} (ha : 0 < a) (hb : IsBinary f.prec f.emin a)
    (h : 2 ^ (f.prec + 10) * 2 ^ f.emin ≤ a * a) : f.rndRoot (f.rnd (a * a)) = a := by
  have hp := prec_pos hf
  have haa : 0 < a * a := by positivity
  -- `2 ^ L` is the power of two below the square
  have hL1 := Int.zpow_log_le_self (b := 2) (by norm_num) haa
  have hL0 : (f.prec : Int) + 10 + f.emin ≤ Int.log 2 (a * a) := by
    refine (Int.zpow_le_iff_le_log (b := 2) (by norm_num) haa).1 ?_
    push_cast
    rw [zpow_add₀ (by norm_num), show (f.prec : Int) + 10 = ((f.prec + 10 : Nat) : Int) by push_cast; rfl, zpow_natCast]
    exact h
  have hE : f.ulpExp (a * a) = Int.log 2 (a * a) - (f.prec - 1) := by
    unfold Fmt.ulpExp; exact max_eq_right (by omega)
  have herr := f.rnd_near (a * a)
  rw [hE] at herr
  -- the last bit of the number
  have hla : f.emin < f.ulpExp a := by
    have h2 : (2 : ℚ) ^ (f.emin + f.prec) ≤ a := by
      have c : (2 : ℚ) ^ (f.emin + f.prec) * 2 ^ (f.emin + f.prec) ≤ 2 ^ (f.prec + 10) * 2 ^ f.emin := by
        rcases hf with rfl | rfl <;> decide +kernel
      by_contra hc
      have hc := not_le.1 hc
      have := mul_self_lt_mul_self ha.le hc
      linarith
    have h3 := (Int.zpow_le_iff_le_log (b := 2) (by norm_num) ha).1 (by push_cast; exact h2)
    unfold Fmt.ulpExp
    refine lt_of_lt_of_le ?_ (le_max_right _ _)
    omega
  have hs1 := f.size_le ha hla
  have hs2 := f.lt_size ha.le
  obtain ⟨m, hm⟩ := Fmt.binary_multiple (e := f.ulpExp a) hb (.inl (by rw [abs_of_pos ha]; exact hs1))
  generalize f.ulpExp a = e at *
  generalize hLd : Int.log 2 (a * a) = L at *
  push_cast at hL1
  have hLlt : (2 : ℚ) ^ L < 2 ^ f.prec * 2 ^ e * (2 ^ f.prec * 2 ^ e) :=
    lt_of_le_of_lt hL1 (mul_self_lt_mul_self ha.le hs2)
  have hbL : IsBinary f.prec f.emin (2 ^ L) :=
    ⟨1, L, by rw [abs_one]; exact one_lt_pow₀ (by norm_num) (by omega), by omega, by simp⟩
  have hr1 : 2 ^ L ≤ f.rnd (a * a) := by
    rw [← Fmt.srnd_nonneg haa.le]; exact Fmt.le_srnd hp hbL hL1
  have herr : |f.rnd (a * a) - a * a| * 2 ^ f.prec ≤ 2 ^ L := by
    have e1 : (2 : ℚ) ^ (L - (f.prec - 1)) / 2 * 2 ^ f.prec = 2 ^ L := by
      rw [← zpow_natCast, div_mul_eq_mul_div, ← zpow_add₀ (by norm_num), div_eq_mul_inv, ← zpow_sub_one₀ (by norm_num)]
      congr 1; ring
    rw [← e1]
    exact mul_le_mul_of_nonneg_right herr (by positivity)
  have hexact : a = 2 ^ ((f.prec : Int) - 1 + e) → f.rnd (a * a) = a * a := by
    intro hc
    apply f.rnd_self hp haa.le
    have e2 : a * a = 2 ^ (((f.prec : Int) - 1 + e) + ((f.prec : Int) - 1 + e)) := by
      rw [zpow_add₀ (by norm_num), ← hc]
    refine ⟨1, ((f.prec : Int) - 1 + e) + ((f.prec : Int) - 1 + e), ?_, ?_, ?_⟩
    · rw [abs_one]; exact one_lt_pow₀ (by norm_num) (by omega)
    · have h4 : (2 : ℚ) ^ (f.emin) ≤ 2 ^ (((f.prec : Int) - 1 + e) + ((f.prec : Int) - 1 + e)) := by
        rw [← e2]
        refine le_trans ?_ h
        exact le_mul_of_one_le_left (Fmt.pow_pos _).le (one_le_pow₀ (by norm_num))
      exact (zpow_le_zpow_iff_right₀ (by norm_num : (1 : ℚ) < 2)).1 h4
    · rw [e2]; simp
  generalize f.rnd (a * a) = r at *
  have hr0 : 0 < r := lt_of_lt_of_le (Fmt.pow_pos L) hr1
  -- in the reals
  have aR : (0 : ℝ) < a := by exact_mod_cast ha
  have rR : (0 : ℝ) < r := by exact_mod_cast hr0
  have hL1R : (2 : ℝ) ^ L ≤ a * a := by
    have : ((2 ^ L : ℚ) : ℝ) ≤ ((a * a : ℚ) : ℝ) := by exact_mod_cast hL1
    push_cast at this; exact this
  have hr1R : (2 : ℝ) ^ L ≤ r := by
    have : ((2 ^ L : ℚ) : ℝ) ≤ ((r : ℚ) : ℝ) := by exact_mod_cast hr1
    push_cast at this; exact this
  have hLltR : (2 : ℝ) ^ L < 2 ^ f.prec * 2 ^ e * (2 ^ f.prec * 2 ^ e) := by
    have : ((2 ^ L : ℚ) : ℝ) < ((2 ^ f.prec * 2 ^ e * (2 ^ f.prec * 2 ^ e) : ℚ) : ℝ) := by exact_mod_cast hLlt
    push_cast at this; exact this
  have herrR : |(r : ℝ) - a * a| * 2 ^ f.prec ≤ 2 ^ L := by
    have : ((|r - a * a| * 2 ^ f.prec : ℚ) : ℝ) ≤ ((2 ^ L : ℚ) : ℝ) := by exact_mod_cast herr
    push_cast at this; exact this
  have hnear : |√(r : ℝ) - a| < 2 ^ e / 2 := by
    have e1 := Real.mul_self_sqrt rR.le
    have p1 := Real.sqrt_pos.2 rR
    generalize √(r : ℝ) = s at *
    rw [← e1] at herrR hr1R
    have e2 : s * s - a * a = (s - a) * (s + a) := by ring
    rw [e2, abs_mul, abs_of_pos (by linarith : 0 < s + a)] at herrR
    by_contra hc
    have hc := not_lt.1 hc
    have hW := Fmt.pow_pos_real e
    have hQ : (0 : ℝ) < 2 ^ f.prec := by positivity
    have hP := Fmt.pow_pos_real L
    generalize (2 : ℝ) ^ e = W at *
    generalize (2 : ℝ) ^ f.prec = Q at *
    generalize (2 : ℝ) ^ L = P at *
    have t1 : W / 2 * (s + a) * Q ≤ P := by
      refine le_trans ?_ herrR
      apply mul_le_mul_of_nonneg_right _ hQ.le
      exact mul_le_mul_of_nonneg_right hc (by linarith)
    have t2 : P ≤ s * a := by
      by_contra hx
      have hx := not_le.1 hx
      have : s * a * (s * a) < P * P := mul_self_lt_mul_self (by positivity) hx
      have : P * P ≤ (s * s) * (a * a) := mul_le_mul hr1R hL1R hP.le (by positivity)
      nlinarith
    have t3 : 4 * P ≤ (s + a) * (s + a) := by nlinarith
    have t4 : (W / 2 * (s + a) * Q) * (W / 2 * (s + a) * Q) ≤ P * P := mul_self_le_mul_self (by positivity) t1
    have t5 : (Q * W * (Q * W)) * (4 * P) ≤ (Q * W * (Q * W)) * ((s + a) * (s + a)) := mul_le_mul_of_nonneg_left t3 (by positivity)
    have t6 : (Q * W * (Q * W)) * P ≤ P * P := by nlinarith
    have := le_of_mul_le_mul_right t6 hP
    linarith
  -- no other number of the format is as near
  have hR := f.rndRoot_nearest hr0.le hb
  rw [abs_sub_comm (a : ℝ)] at hR
  have hRb := f.rndRoot_binary hp hr0.le
  by_cases hpow : a = 2 ^ ((f.prec : Int) - 1 + e)
  · have e1 := hexact hpow
    have e2 : √(r : ℝ) = a := by
      rw [e1]; push_cast; exact Real.sqrt_mul_self aR.le
    rw [e2, sub_self, abs_zero] at hR
    have := sub_eq_zero.1 (abs_eq_zero.1 (le_antisymm hR (abs_nonneg _)))
    exact_mod_cast this
  · have hlt : |(f.rndRoot r : ℝ) - a| < 2 ^ e := by
      have := abs_sub_le (f.rndRoot r : ℝ) (√(r : ℝ)) a
      linarith
    have hlt : |f.rndRoot r - a| < 2 ^ e := by
      have : ((|f.rndRoot r - a| : ℚ) : ℝ) < ((2 ^ e : ℚ) : ℝ) := by push_cast; exact hlt
      exact_mod_cast this
    have hmin : (2 : ℚ) ^ ((f.prec : Int) - 1 + e) + 2 ^ e ≤ a := by
      have e3 : (2 : ℚ) ^ ((f.prec : Int) - 1 + e) = ((2 ^ (f.prec - 1) : Int) : ℚ) * 2 ^ e := by
        push_cast
        rw [← zpow_natCast, ← zpow_add₀ (by norm_num)]
        congr 1; omega
      have hlt2 : (2 : ℚ) ^ ((f.prec : Int) - 1 + e) < a := lt_of_le_of_ne hs1 (Ne.symm hpow)
      rw [e3] at hlt2 ⊢
      rw [hm] at hlt2 ⊢
      have h5 : ((2 ^ (f.prec - 1) : Int) : ℚ) < m := lt_of_mul_lt_mul_right hlt2 (Fmt.pow_pos e).le
      have h6 : ((2 ^ (f.prec - 1) : Int) : ℚ) + 1 ≤ m := by exact_mod_cast (show (2 ^ (f.prec - 1) : Int) < m by exact_mod_cast h5)
      have := mul_le_mul_of_nonneg_right h6 (Fmt.pow_pos e).le
      linarith
    have hRge : (2 : ℚ) ^ ((f.prec : Int) - 1 + e) ≤ |f.rndRoot r| := by
      rw [abs_of_nonneg (f.rndRoot_nonneg r)]
      have := (abs_lt.1 hlt).1
      linarith
    obtain ⟨n, hn⟩ := Fmt.binary_multiple (e := e) hRb (.inl hRge)
    rw [hn, hm, ← sub_mul, abs_mul, abs_of_pos (Fmt.pow_pos e)] at hlt
    have h7 : |(n : ℚ) - m| < 1 := by
      have := Fmt.pow_pos e
      by_contra hc
      have := mul_le_mul_of_nonneg_right (not_lt.1 hc) this.le
      linarith
    have h8 : |n - m| < 1 := by exact_mod_cast h7
    have h9 : n = m := by have := abs_lt.1 h8; omega
    rw [hn, h9, ← hm]

/-! ## Squares and sums of them, without regard to their size -/

/-- A number that is not below zero and does not have a minus sign. -/
def NonNeg (x : Flt) : Prop := (∃ m, 0 ≤ m ∧ x = .fin false m) ∨ x = .inf false

theorem result_nonNeg {f : Fmt} {q : ℚ} (h : 0 ≤ q) :
    f.result false q = if f.maxVal < f.rnd q then .inf false else .fin false (f.rnd q) := by
  have e : (if q = 0 then false else decide (q < 0)) = false := by
    split_ifs
    · rfl
    · exact decide_eq_false (not_lt.2 h)
  simp only [Fmt.result, e, abs_of_nonneg h]

theorem mul_self_fin (f : Fmt) (s : Bool) (m : ℚ) :
    f.mul (.fin s m) (.fin s m) = if f.maxVal < f.rnd (m * m) then .inf false else .fin false (f.rnd (m * m)) := by
  have : f.mul (.fin s m) (.fin s m) = f.result false (m * m) := by cases s <;> rfl
  rw [this, result_nonNeg (mul_self_nonneg m)]

theorem nonNeg_result {f : Fmt} {q : ℚ} (h : 0 ≤ q) : NonNeg (f.result false q) := by
  rw [result_nonNeg h]
  split_ifs
  · exact .inr rfl
  · exact .inl ⟨_, f.rnd_nonneg h, rfl⟩

theorem nonNeg_square {f : Fmt} {x : Flt} (h : IsNumber x) : NonNeg (f.mul x x) := by
  rcases x with ⟨s, m⟩ | s | s
  · have : f.mul (.fin s m) (.fin s m) = f.result false (m * m) := by cases s <;> rfl
    rw [this]; exact nonNeg_result (mul_self_nonneg m)
  · right; cases s <;> rfl
  · obtain ⟨p, hp⟩ := h; cases hp

theorem NonNeg.add {f : Fmt} {x y : Flt} (hx : NonNeg x) (hy : NonNeg y) : NonNeg (f.add x y) := by
  rcases hx with ⟨m, h, rfl⟩ | rfl <;> rcases hy with ⟨m', h', rfl⟩ | rfl
  · show NonNeg (f.result false (m + m'))
    exact nonNeg_result (by linarith)
  · right; rfl
  · right; rfl
  · right; rfl

theorem NonNeg.sqrt {f : Fmt} {x : Flt} (hx : NonNeg x) : NonNeg (f.sqrt x) := by
  rcases hx with ⟨m, h, rfl⟩ | rfl
  · by_cases h0 : m = 0
    · subst h0; rw [sqrt_zero]; exact .inl ⟨0, le_rfl, rfl⟩
    · left
      exact ⟨f.rndRoot m, f.rndRoot_nonneg m, by simp [Fmt.sqrt, h0]⟩
  · right; rfl

theorem NonNeg.atMost {x : Flt} (hx : NonNeg x) : AtMost (.fin false 0) x := by
  rcases hx with ⟨m, h, rfl⟩ | rfl
  · rw [atMost_fin]; simpa [Flt.val] using h
  · rw [← le_iff]; rfl

theorem NonNeg.add_inf {f : Fmt} {x : Flt} (hx : NonNeg x) : f.add x (.inf false) = .inf false ∧ f.add (.inf false) x = .inf false := by
  rcases hx with ⟨m, h, rfl⟩ | rfl <;> exact ⟨rfl, rfl⟩

theorem mul_nan_left (f : Fmt) (s : Bool) (x : Flt) : f.mul (.nan s) x = .nan false := by cases x <;> rfl
theorem mul_nan_right (f : Fmt) (s : Bool) (x : Flt) : f.mul x (.nan s) = .nan false := by cases x <;> rfl
theorem add_nan_left (f : Fmt) (s : Bool) (x : Flt) : f.add (.nan s) x = .nan false := by cases x <;> rfl
theorem add_nan_right (f : Fmt) (s : Bool) (x : Flt) : f.add x (.nan s) = .nan false := by cases x <;> rfl

/-- Squares of very large numbers are infinite. -/
theorem square_over {f : Fmt} (hf : f = .double ∨ f = .single) {x : Flt} {a : ℚ} (hx : Stands f x a) (h : 2 * f.maxVal ≤ a * a) :
    f.mul x x = .inf false := by
  obtain ⟨s, m, rfl, rfl⟩ := hx.fin
  have e : (Flt.fin s m).val * (Flt.fin s m).val = m * m := by cases s <;> simp [Flt.val]
  rw [e] at h
  rw [mul_self_fin, if_pos]
  have hM : 0 < f.maxVal := by linarith [(fmt_consts hf).2.2.2, (by positivity : (0 : ℚ) < 2 ^ 100)]
  have := Fmt.le_srnd (prec_pos hf) (binary_double (maxVal_binary hf)) h
  rw [Fmt.srnd_nonneg (mul_self_nonneg m)] at this
  linarith

/-- Squares of very small numbers are zero. -/
theorem square_under {f : Fmt} (hf : f = .double ∨ f = .single) {x : Flt} {a : ℚ} (hx : Stands f x a) (h : a * a < 2 ^ f.emin / 2) :
    f.mul x x = .fin false 0 := by
  obtain ⟨s, m, rfl, rfl⟩ := hx.fin
  have e : (Flt.fin s m).val * (Flt.fin s m).val = m * m := by cases s <;> simp [Flt.val]
  rw [e] at h
  have hp := Fmt.pow_pos f.emin
  have h0 : 0 ≤ m * m := mul_self_nonneg m
  have h1 := srnd_le_two (f := f) (prec_pos hf) h0
  rw [Fmt.srnd_nonneg h0] at h1
  obtain ⟨n, hn⟩ := binary_mul (f.rnd_binary (prec_pos hf) h0)
  have h2 := f.rnd_nonneg h0
  have h3 : f.rnd (m * m) = 0 := by
    rw [hn] at h1 h2 ⊢
    have a1 : (n : ℚ) < 1 := by
      by_contra hc
      have := mul_le_mul_of_nonneg_right (not_lt.1 hc) hp.le
      linarith
    have a2 : (0 : ℚ) ≤ n := nonneg_of_mul_nonneg_left h2 hp
    have : n < 1 := by exact_mod_cast a1
    have : 0 ≤ n := by exact_mod_cast a2
    have : n = 0 := by omega
    subst this; simp
  rw [mul_self_fin, h3, if_neg]
  have hM : 0 < f.maxVal := by linarith [(fmt_consts hf).2.2.2, (by positivity : (0 : ℚ) < 2 ^ 100)]
  linarith

theorem square_fits {f : Fmt} (hf : f = .double ∨ f = .single) {x : Flt} {a : ℚ} (hx : Stands f x a) (h : a * a ≤ f.maxVal) :
    f.mul x x = .fin false (f.rnd (a * a)) ∧ IsFloat f (.fin false (f.rnd (a * a))) := by
  obtain ⟨s, m, rfl, rfl⟩ := hx.fin
  have e : (Flt.fin s m).val * (Flt.fin s m).val = m * m := by cases s <;> simp [Flt.val]
  rw [e] at h ⊢
  have h0 : 0 ≤ m * m := mul_self_nonneg m
  have h1 := Fmt.srnd_le (prec_pos hf) (maxVal_binary hf) h
  rw [Fmt.srnd_nonneg h0] at h1
  rw [mul_self_fin, if_neg (not_lt.2 h1)]
  exact ⟨rfl, f.rnd_nonneg h0, h1, f.rnd_binary (prec_pos hf) h0⟩

theorem add_zero_fin {f : Fmt} (hf : f = .double ∨ f = .single) {m : ℚ} (h : IsFloat f (.fin false m)) :
    f.add (.fin false m) (.fin false 0) = .fin false m ∧ f.add (.fin false 0) (.fin false m) = .fin false m := by
  obtain ⟨h0, h1, h2⟩ := h
  have e : f.result false m = .fin false m := by
    rw [result_nonNeg h0, f.rnd_self (prec_pos hf) h0 h2, if_neg (not_lt.2 h1)]
  constructor
  · show f.result false (m + 0) = _
    rw [add_zero, e]
  · show f.result false (0 + m) = _
    rw [zero_add, e]

end Flut
