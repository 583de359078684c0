import Verif.Proofs.FloatRegressionStep

/-! # Property theorems: linear regression with a fixed step in floating-point arithmetic (C160) -/

namespace Flut

open Spec FloatMath

/-- What `linear_regression` with a fixed step computes. -/
theorem flinearStep_eq (f : Fmt) (xb st : Flt) (w : List Flt) : ∃ s, s = f.div (devSum f (f.add xb (halfRange f st w.length)) (average f w)
      (stepPos f st w.length xb) w) (stepDen f st (halfRange f st w.length)) ∧
    FloatMath.linearRegressionStep f xb st w = ⟨f.sub (average f w) (f.mul s (f.add xb (halfRange f st w.length))), s⟩ := by
  refine ⟨_, rfl, ?_⟩
  unfold FloatMath.linearRegressionStep
  simp only [fregressionStepLoop_eq]
  rfl

section

variable {f : Fmt} {A B : ℚ}

theorem middle_arith {u n A x h H a : ℚ} (hu : 0 ≤ u) (hu1 : u ≤ 1 / 1000000) (hn : 2 ≤ n) (hA : 0 ≤ A) (hH : |H| ≤ A) (hm : |x + H| ≤ A)
    (rh : |h - H| ≤ 201 / 100 * u * |H|) (ea : |a - (x + h)| ≤ |x + h| * u) :
    |x + h| ≤ 2 * A ∧ |a - (x + H)| ≤ 8 / 7 * (n * u) * (3 / 2 * A) := by
  have k1 := mul_le_mul_of_nonneg_left hH (show 0 ≤ 201 / 100 * u by positivity)
  have huA : 0 ≤ u * A := by positivity
  have k2 : u * A ≤ 1 / 1000000 * A := mul_le_mul_of_nonneg_right hu1 hA
  have h1 : |x + h| ≤ A + 201 / 100 * (u * A) := by
    have e : x + h = (x + H) + (h - H) := by ring
    rw [e]
    refine (abs_add_le _ _).trans ?_
    linarith
  refine ⟨by linarith, ?_⟩
  have h2 := mul_le_mul_of_nonneg_right h1 hu
  have h3 : |a - (x + H)| ≤ |a - (x + h)| + |h - H| := by
    have e : a - (x + H) = (a - (x + h)) + (h - H) := by ring
    rw [e]; exact abs_add_le _ _
  have h4 : u * A * u ≤ u * A * (1 / 1000000) := mul_le_mul_of_nonneg_left hu1 huA
  have h5 := mul_le_mul_of_nonneg_right hn huA
  linarith

/-- C160. The slope and the intercept are right to an error that depends on how far the positions are from zero. -/
theorem C160_error (hf : f = .double ∨ f = .single) {xb st : Flt} {x d : ℚ} {w : List Flt} {q : List ℚ} (hx : Stands f xb x) (hst : Stands f st d)
    (hw : List.Forall₂ (Stands f) w q) (h2 : 2 ≤ q.length) (hn : 1000 * q.length ≤ 2 ^ f.prec) (hA : |x| ≤ A) (hA' : |x + (q.length - 1) * d| ≤ A)
    (hB : ∀ y ∈ q, |y| ≤ B) (hlo : 2 * ((2 : ℚ) ^ f.prec * 2 ^ f.emin) ≤ |d| ^ 3) (hhi : 4 * (q.length * |d|) ^ 3 ≤ f.maxVal)
    (hmA : 12 * (q.length * A) ≤ f.maxVal) (hmB : 8 * (q.length * B) ≤ f.maxVal) (hmAB : 12 * (q.length * (A * B)) ≤ f.maxVal) (p : List ℚ)
    (hp : p = positions x d q.length) (hmS : 4 * (B + (|slope p q| + stepSlopeError f p q A B) * (3 / 2 * A + 1)) ≤ f.maxVal) :
    ∃ l s o, FloatMath.linearRegressionStep f xb st w = l ∧ Stands f l.slope s ∧ Stands f l.offset o ∧ |s - slope p q| ≤ stepSlopeError f p q A B ∧
      |o - intercept p q| ≤ 3 / 2 * A * stepSlopeError f p q A B + 4 * q.length * (B + 3 / 2 * A * (|slope p q| + stepSlopeError f p q A B)) / 2 ^ f.prec +
        2 * (1 + |slope p q| + stepSlopeError f p q A B) * 2 ^ f.emin := by
  have hlw := hw.length_eq
  obtain ⟨_, rfl, hr⟩ := flinearStep_eq f xb st w
  rw [hlw] at hr
  obtain ⟨hu0, hη0, hη1, hη2, hM⟩ := stat_consts hf
  obtain ⟨-, hu1⟩ := rel_const hf
  have hq0 : q ≠ [] := by rw [← List.length_pos_iff]; omega
  have hnp : q.length < 2 ^ f.prec := by omega
  have hn2 : (2 : ℚ) ≤ q.length := by exact_mod_cast h2
  have hnu : (q.length : ℚ) * (1 / 2 ^ f.prec) ≤ 1 / 1000 := by
    rw [mul_one_div, div_le_iff₀ (by positivity)]
    have : (1000 : ℚ) * q.length ≤ 2 ^ f.prec := by exact_mod_cast hn
    linarith
  have hpl : p.length = q.length := by rw [hp, positions_length]
  have hA0 : 0 ≤ A := (abs_nonneg _).trans hA
  have hB0 : 0 ≤ B := (abs_nonneg _).trans (mean_abs_le hq0 hB)
  have hnA : 0 ≤ (q.length : ℚ) * A := by positivity
  have hAnA : A ≤ q.length * A := le_mul_of_one_le_left hA0 (by linarith)
  obtain ⟨l1, l2⟩ := pow_small (normal_small f hf) hlo
  obtain ⟨g1, g2⟩ := pow_large hM (by positivity) hhi
  -- the middle
  obtain ⟨h, sh, rh⟩ := halfRange_near hf hst h2 hnp l1 g1
  have hmp : mean p = x + (q.length - 1) * d / 2 := by rw [hp]; exact positions_mean x d (by omega)
  have hma : |x + (q.length - 1) * d / 2| ≤ A := by
    have e : x + ((q.length : ℚ) - 1) * d / 2 = (x + (x + (q.length - 1) * d)) / 2 := by ring
    rw [e, abs_div, abs_of_pos (show (0 : ℚ) < 2 by norm_num)]
    have := abs_add_le x (x + ((q.length : ℚ) - 1) * d)
    linarith
  have hH : |((q.length : ℚ) - 1) * d / 2| ≤ A := by
    have e : ((q.length : ℚ) - 1) * d / 2 = ((x + (q.length - 1) * d) - x) / 2 := by ring
    rw [e, abs_div, abs_of_pos (show (0 : ℚ) < 2 by norm_num)]
    have := abs_sub (x + ((q.length : ℚ) - 1) * d) x
    linarith
  have hra := srnd_rel (f := f) (prec_pos hf) (q := x + h) (multiple_add (binary_mul hx.binary) (binary_mul sh.binary))
  rw [div_eq_mul_one_div] at hra
  obtain ⟨hxh, ea⟩ := middle_arith hu0.le hu1 hn2 hA0 hH hma rh hra
  have ha := add_stands hf hx sh (hxh.trans (by linarith))
  have ea' : |f.srnd (x + h) - mean p| ≤ 8 / 7 * (q.length * (1 / 2 ^ f.prec)) * (3 / 2 * A) + 2 ^ f.emin / 2 := by
    rw [hmp]; linarith
  obtain ⟨b, hb, eb⟩ := mean_near hf hw hq0 hB hnu hmB
  have hmb := mean_abs_le hq0 hB
  -- the sum of products
  obtain ⟨p', hp1, hp2⟩ := stepPos_near hf (n := q.length) hnu hst (positions_abs hA hA') (by linarith) q.length 0 xb x (by omega) hx (by simp)
  have hp2' : List.Forall₂ (fun y z => |y - z| ≤ 8 / 7 * (q.length * (1 / 2 ^ f.prec) * A)) p' p := by
    rw [hp, positions, List.range_eq_range']; exact hp2
  have hpl' : p'.length = q.length := by rw [hp2'.length_eq, hpl]
  have hwA : (q.length : ℚ) * (1 / 2 ^ f.prec) * A ≤ 1 / 1000 * A := mul_le_mul_of_nonneg_right hnu hA0
  have hwA0 : 0 ≤ (q.length : ℚ) * (1 / 2 ^ f.prec) * A := by positivity
  have hpA : ∀ y ∈ p, |y| ≤ A := by
    rw [hp]
    intro y hy
    obtain ⟨i, hi, rfl⟩ := List.mem_map.1 hy
    exact positions_abs hA hA' i (List.mem_range.1 hi)
  have hpA' : ∀ y ∈ p', |y| ≤ 3 / 2 * A := by
    intro y hy
    obtain ⟨i, hi, rfl⟩ := List.getElem_of_mem hy
    have h1 := hp2'.get hi (by omega)
    simp only [List.get_eq_getElem] at h1
    have h3 := hpA _ (List.getElem_mem (l := p) (n := i) (by omega))
    have h4 := abs_sub_abs_le_abs_sub p'[i] p[i]
    linarith
  obtain ⟨σ, hσ, eσ⟩ := devSum_near_of (A := 3 / 2 * A) (B := B) hf (v := stepPos f st q.length xb) (w := w) (p := p') (q := q) (ma := mean p) (mb := mean q) hp1 hw
    (by rw [stepPos_length, hlw]) (by rw [← List.length_pos_iff]; omega) hpA' hB (by rw [hpl']; exact hnu) (by rw [hpl']; linarith) (by rw [hpl']; exact hmB)
    (by rw [hpl']; linarith) ha hb (by rw [hmp]; linarith) hmb (by rw [hpl']; exact ea') (by rw [hpl']; exact eb)
  rw [hpl'] at eσ
  have eσ2 := deviations_near (ma := mean p) (mb := mean q) hp2' (by linarith) hpl hB hmb
  rw [hpl] at eσ2
  have hAB : 0 ≤ A * B := by positivity
  have eσ3 : |σ - deviations (mean p) (mean q) p q| ≤ stepSumError f p.length A B := by
    have e : σ - deviations (mean p) (mean q) p q = (σ - deviations (mean p) (mean q) p' q) + (deviations (mean p) (mean q) p' q - deviations (mean p) (mean q) p q) := by
      ring
    rw [e]
    refine (abs_add_le _ _).trans ((add_le_add eσ eσ2).trans ?_)
    unfold stepSumError
    rw [hpl, ← mul_add]
    refine mul_le_mul_of_nonneg_left ?_ (by linarith)
    generalize (q.length : ℚ) * (1 / 2 ^ f.prec) = ν at *
    generalize (2 : ℚ) ^ f.emin = η at *
    have hν : 0 ≤ ν * (A * B) := by
      have := mul_nonneg hwA0 hB0
      linarith
    have t1 : 0 ≤ η * A := by positivity
    have t2 : 0 ≤ η * B := by positivity
    linarith
  -- the sum of squares
  obtain ⟨δ, hδ, eδ⟩ := stepDen_near hf hst h2 hnp hlo hhi
  have hD : deviations (mean p) (mean p) p p = d ^ 2 * (q.length * (q.length - 1) * (q.length + 1) / 12) := by
    rw [hp]; exact positions_deviations x d (by omega)
  have hNN : (0 : ℚ) < 2 ^ f.prec * 2 ^ f.emin := by positivity
  have hd : d ≠ 0 := abs_pos.1 (by linarith)
  have hD0 : 0 < deviations (mean p) (mean p) p p := by
    rw [hD]
    have : (0 : ℚ) < q.length - 1 := by linarith
    positivity
  unfold Rel at eδ
  rw [← hD, abs_of_pos hD0] at eδ
  have hs : deviations (mean p) (mean q) p q = slope p q * deviations (mean p) (mean p) p p := by
    unfold slope
    rw [div_mul_cancel₀ _ hD0.ne']
  have hT : stepSlopeError f p q A B = 5 / 2 * ((stepSumError f p.length A B + |slope p q| * (14 * (1 / 2 ^ f.prec) * deviations (mean p) (mean p) p p)) /
      deviations (mean p) (mean p) p p) + |slope p q| * (1 / 2 ^ f.prec) + 2 ^ f.emin := by
    unfold stepSlopeError
    field_simp
    ring
  rw [hs] at eσ3
  have hF0 : 0 ≤ stepSumError f p.length A B := (abs_nonneg _).trans eσ3
  rw [hT] at hmS ⊢
  obtain ⟨s, o, r1, r2, r3, r4⟩ := line_near (A := 3 / 2 * A) (B := B) hf (N := q.length) (by linarith) hnu (by linarith) hB0 (by positivity) hF0
    (by
      have := mul_le_mul_of_nonneg_right hu1 hD0.le
      linarith) hσ hδ ha hb eσ3 eδ (by rw [hmp]; linarith) hmb ea' eb hmS
  refine ⟨_, s, o, hr, ?_, ?_, r3, r4⟩
  · exact r1
  · exact r2

end

theorem sub_notNumber (f : Fmt) {x y : Flt} (h : NotNumber y) : NotNumber (f.sub x y) := by
  refine add_notNumber f (.inr ?_)
  rw [notNumber_iff] at h ⊢
  obtain ⟨s, rfl⟩ := h
  exact ⟨_, rfl⟩

/-- Nothing divided by nothing, or by what is not a number. -/
theorem zero_div_notNumber (f : Fmt) {x y : Flt} (hx : Stands f x 0) (hy : NotNumber y ∨ Stands f y 0) : NotNumber (f.div x y) := by
  rw [notNumber_iff]
  rcases hy with hy | hy
  · obtain ⟨s, rfl⟩ := (notNumber_iff _).1 hy
    exact ⟨false, by cases x <;> rfl⟩
  · obtain ⟨s, m, rfl, hm⟩ := hy.fin
    obtain ⟨t, k, rfl, hk⟩ := hx.fin
    have hm0 : m = 0 := by cases s <;> simpa [Flt.val] using hm
    have hk0 : k = 0 := by cases t <;> simpa [Flt.val] using hk
    exact ⟨false, by simp [Fmt.div, hm0, hk0]⟩

/-- C160. One value does not make a line. -/
theorem C160_one {f : Fmt} (hf : f = .double ∨ f = .single) {xb st y : Flt} {x d q : ℚ} (hx : Stands f xb x) (hst : Stands f st d) (hy : Stands f y q) :
    NotNumber (FloatMath.linearRegressionStep f xb st [y]).slope ∧ NotNumber (FloatMath.linearRegressionStep f xb st [y]).offset := by
  obtain ⟨_, rfl, hr⟩ := flinearStep_eq f xb st [y]
  have hp := prec_pos hf
  have hM0 : 0 ≤ f.maxVal := by have := (stat_consts hf).2.2.2.2; linarith
  have z0 : |(0 : ℚ)| ≤ f.maxVal := by rw [abs_zero]; exact hM0
  have n2 : Stands f (f.ofRat 2) 2 := by
    have := nat_stands hf (n := 2) (by rcases hf with rfl | rfl <;> decide)
    exact_mod_cast this
  have n1 : Stands f (f.ofRat ([y].length : Nat)) 1 := by
    have := nat_stands hf (n := 1) (by rcases hf with rfl | rfl <;> decide)
    exact_mod_cast this
  have hz : Stands f (sizeLessOne f 1) 0 := by
    rw [sizeLessOne_eq f (by norm_num) (by norm_num)]
    have := nat_stands hf (n := 0) (by positivity)
    exact_mod_cast this
  have hd := hst.abs_le
  have hh : Stands f (halfRange f st [y].length) 0 := by
    have h1 := mul_stands hf hz hst (by rw [zero_mul]; exact z0)
    rw [zero_mul, Fmt.srnd_zero] at h1
    have h2 := div_stands hf h1 n2 (by norm_num) (by rw [zero_div]; exact z0)
    rwa [zero_div, Fmt.srnd_zero] at h2
  have ha : Stands f (f.add xb (halfRange f st [y].length)) x := by
    have := add_stands hf hx hh (by rw [add_zero]; exact hx.abs_le)
    rwa [add_zero, Fmt.srnd_self hp hx.binary] at this
  have hb : Stands f (average f [y]) q := by
    have h1 := add_stands hf (zero_stands f hf false) hy (by rw [zero_add]; exact hy.abs_le)
    rw [zero_add, Fmt.srnd_self hp hy.binary] at h1
    have h2 := div_stands hf h1 n1 (by norm_num) (by rw [div_one]; exact hy.abs_le)
    rwa [div_one, Fmt.srnd_self hp hy.binary] at h2
  have hnum : Stands f (devSum f (f.add xb (halfRange f st [y].length)) (average f [y]) (stepPos f st [y].length xb) [y]) 0 := by
    have h1 := sub_stands hf hx ha (by rw [sub_self]; exact z0)
    have h2 := sub_stands hf hy hb (by rw [sub_self]; exact z0)
    rw [sub_self, Fmt.srnd_zero] at h1 h2
    have h3 := mul_stands hf h1 h2 (by rw [zero_mul]; exact z0)
    rw [zero_mul, Fmt.srnd_zero] at h3
    have h4 := add_stands hf (zero_stands f hf false) h3 (by rw [zero_add]; exact z0)
    rwa [zero_add, Fmt.srnd_zero] at h4
  have hden : NotNumber (stepDen f st (halfRange f st [y].length)) ∨ Stands f (stepDen f st (halfRange f st [y].length)) 0 := by
    have h1 := add_stands hf hh hst (by rw [zero_add]; exact hd)
    rw [zero_add, Fmt.srnd_self hp hst.binary] at h1
    have h2 := mul_stands hf hh h1 (by rw [zero_mul]; exact z0)
    rw [zero_mul, Fmt.srnd_zero] at h2
    have h3 := mul_stands hf n2 hh (by rw [mul_zero]; exact z0)
    rw [mul_zero, Fmt.srnd_zero] at h3
    have h4 := add_stands hf h3 hst (by rw [zero_add]; exact hd)
    rw [zero_add, Fmt.srnd_self hp hst.binary] at h4
    have h5 := mul_stands hf h2 h4 (by rw [zero_mul]; exact z0)
    rw [zero_mul, Fmt.srnd_zero] at h5
    unfold stepDen
    obtain ⟨t, k, ht, hk⟩ := h5.fin
    have hk0 : k = 0 := by cases t <;> simpa [Flt.val] using hk
    rcases hm : f.mul (f.ofRat 3) st with ⟨s, m⟩ | s | s
    · by_cases h0 : m = 0
      · left
        rw [ht, notNumber_iff]
        exact ⟨false, by simp [Fmt.div, h0, hk0]⟩
      · right
        have e : f.div (.fin t k) (.fin s m) = f.result (t != s) 0 := by simp [Fmt.div, h0, hk0]
        rw [ht, e]
        have := result_stands hf (t != s) z0
        rwa [Fmt.srnd_zero] at this
    · rw [ht]
      right
      exact zero_stands f hf _
    · left
      rw [ht, notNumber_iff]
      exact ⟨false, rfl⟩
  have hs := zero_div_notNumber f hnum hden
  rw [hr]
  refine ⟨hs, sub_notNumber f ?_⟩
  rw [f.mul_comm]
  exact mul_notNumber f hs

/-- C160. Neither does none. -/
theorem C160_none {f : Fmt} (hf : f = .double ∨ f = .single) (xb st : Flt) : NotNumber (FloatMath.linearRegressionStep f xb st []).offset := by
  obtain ⟨_, -, hr⟩ := flinearStep_eq f xb st []
  rw [hr]
  refine add_notNumber f (.inl ?_)
  have := nat_stands hf (n := 0) (by positivity)
  exact zero_div_notNumber f (zero_stands f hf false) (.inr (by exact_mod_cast this))

/-- C160 fails for positions that are close together compared to where they are: the position is stepped on by an amount that is lost each
time. Four values that go up by one with each step give a level line, in single precision. -/
theorem C160_far_refuted : FloatMath.linearRegressionStep .single (.fin false (2 ^ 24)) (.fin false 1) [.fin false 0, .fin false 1, .fin false 2, .fin false 3] =
    ⟨.fin false (3 / 2), .fin false 0⟩ := by decide +kernel

/-- C160 fails for large steps: the third power of the step is more than any number. Values equal to the positions give a level line, where the
general form finds the line. -/
theorem C160_large_refuted : FloatMath.linearRegressionStep .single (.fin false 0) (.fin false (2 ^ 50)) [.fin false 0, .fin false (2 ^ 50)] =
      ⟨.fin false (2 ^ 49), .fin false 0⟩ ∧
    FloatMath.linearRegression .single [.fin false 0, .fin false (2 ^ 50)] [.fin false 0, .fin false (2 ^ 50)] = .ok ⟨.fin false 0, .fin false 1⟩ := by
  decide +kernel

/-- C160 fails for small steps: the third power of the step vanishes. Values equal to the positions give an infinite slope, where the general form
finds the line. -/
theorem C160_small_refuted : (FloatMath.linearRegressionStep .single (.fin false 0) (.fin false (1 / 2 ^ 60)) [.fin false 0, .fin false (1 / 2 ^ 60)]).slope =
      .inf false ∧
    FloatMath.linearRegression .single [.fin false 0, .fin false (1 / 2 ^ 60)] [.fin false 0, .fin false (1 / 2 ^ 60)] = .ok ⟨.fin false 0, .fin false 1⟩ := by
  decide +kernel

/-- A case within the bounds: the line through 1, 3 and 3, 7 and 5, 11. -/
example : Stands .double (.fin false 1) 1 ∧ Stands .double (.fin false 2) 2 ∧ List.Forall₂ (Stands .double) [.fin false 3, .fin false 7, .fin false 11] [3, 7, 11] ∧
    (∀ y ∈ [(3 : ℚ), 7, 11], |y| ≤ 11) ∧ 2 * ((2 : ℚ) ^ Fmt.double.prec * 2 ^ Fmt.double.emin) ≤ |(2 : ℚ)| ^ 3 ∧ 4 * (3 * |(2 : ℚ)|) ^ 3 ≤ Fmt.double.maxVal ∧
    positions 1 2 3 = [1, 3, 5] ∧ slope [1, 3, 5] [3, 7, 11] = 2 ∧ intercept [1, 3, 5] [3, 7, 11] = 1 ∧ stepSlopeError .double [1, 3, 5] [3, 7, 11] 5 11 ≤ 1 / 10 ^ 11 ∧
    4 * (11 + (|slope [1, 3, 5] [3, 7, 11]| + stepSlopeError .double [1, 3, 5] [3, 7, 11] 5 11) * (3 / 2 * 5 + 1)) ≤ Fmt.double.maxVal := by
  refine ⟨?_, ?_, ?_, by decide +kernel, by decide +kernel, by decide +kernel, by decide +kernel, by decide +kernel, by decide +kernel, by decide +kernel,
    by decide +kernel⟩
  · simpa using stands_double false (n := 1) (e := 0) (by norm_num) (by norm_num)
  · simpa using stands_double false (n := 2) (e := 0) (by norm_num) (by norm_num)
  · refine .cons ?_ (.cons ?_ (.cons ?_ .nil))
    · simpa using stands_double false (n := 3) (e := 0) (by norm_num) (by norm_num)
    · simpa using stands_double false (n := 7) (e := 0) (by norm_num) (by norm_num)
    · simpa using stands_double false (n := 11) (e := 0) (by norm_num) (by norm_num)

example : FloatMath.linearRegressionStep .double (.fin false 1) (.fin false 2) [.fin false 3, .fin false 7, .fin false 11] = ⟨.fin false 1, .fin false 2⟩ := by
  decide +kernel

end Flut
