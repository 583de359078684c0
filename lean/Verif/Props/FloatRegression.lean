import Verif.Props.FloatStat
import Verif.Props.NumericFit

/-! # Property theorems: linear regression in floating-point arithmetic (C138) -/

namespace Flut

open Spec FloatMath

/-- What `linear_regression` computes. -/
theorem flinear_eq (f : Fmt) {v w : List Flt} (hl : v.length = w.length) : ∃ s, s = f.div (devSum f (average f v) (average f w) v w)
      (devSum f (average f v) (average f v) v v) ∧
    FloatMath.linearRegression f v w = .ok ⟨f.sub (average f w) (f.mul s (average f v)), s⟩ := by
  refine ⟨_, rfl, ?_⟩
  unfold FloatMath.linearRegression
  rw [if_neg (by omega)]
  simp only [fregressionLoop_eq _ _ _ _ hl]
  rfl

/-- C138. The line these are measured against is the one of exact arithmetic, which is the line of least squares (C66). -/
theorem C138_exact (p q : List ℚ) (hl : p.length = q.length) (h : deviations (mean p) (mean p) p p ≠ 0) :
    Flut.linearRegression p q = .ok ⟨intercept p q, slope p q⟩ := by
  have hp : p ≠ [] := by rintro rfl; exact h rfl
  have hq : q ≠ [] := by rw [← List.length_pos_iff] at hp ⊢; omega
  unfold Flut.linearRegression
  rw [if_neg (by omega), C42_average p hp, Res.bind_ok, C42_average q hq, Res.bind_ok]
  simp only [regressionLoop_eq, zero_add]
  have e1 : ((p.zip q).map fun z => (z.1 - p.sum / p.length) * (z.2 - q.sum / q.length)).sum = deviations (mean p) (mean q) p q := by
    unfold deviations mean
    rw [List.map_zip_eq_zipWith]
    rfl
  have e2 : ((p.zip q).map fun z => (z.1 - p.sum / p.length) * (z.1 - p.sum / p.length)).sum = deviations (mean p) (mean p) p p := by
    unfold deviations mean
    have : ∀ (c : ℚ) (p q : List ℚ), p.length = q.length → ((p.zip q).map fun z => (z.1 - c) * (z.1 - c)) = List.zipWith (fun x y => (x - c) * (y - c)) p p := by
      intro c p
      induction p with
      | nil => intro q _; rfl
      | cons x p ih =>
        intro q hq
        cases q with
        | nil => simp at hq
        | cons y q => simp [ih q (by simpa using hq)]
    rw [this _ p q hl]
  rw [e1, e2, if_neg h]
  rfl

/-- The error of the intercept. -/
theorem offset_arith {u η n A B W T r1 r2 r3 r4 d1 d2 d3 : ℚ} (hu : 0 < u) (hu1 : u ≤ 1 / 1000) (hη : 0 < η) (hn : 1 ≤ n) (hA : 0 ≤ A) (hB : 0 ≤ B) (hW : 0 ≤ W)
    (eo : r1 ≤ d1 * u + η / 2) (hou : d1 * u ≤ (101 / 100 * B + 102 / 100 * (A * W) + W * η + η) * u) (eb : r2 ≤ 8 / 7 * (n * u) * B + η / 2)
    (eπ : r3 ≤ d2 * u + η / 2) (hpu : d2 * u ≤ (101 / 100 * (A * W) + W * η / 2) * u) (hx : r4 ≤ A * T + W * (8 / 7 * (n * u) * A + η / 2))
    (ht : d3 ≤ r1 + r2 + r3 + r4) : d3 ≤ A * T + (4 * (n * u * B) + 4 * (n * u * (A * W))) + (2 * η + 2 * (W * η)) := by
  have k1 : B * u ≤ n * u * B := by
    have := le_mul_of_one_le_left (mul_nonneg hB hu.le) hn
    linarith
  have k2 : A * W * u ≤ n * u * (A * W) := by
    have := le_mul_of_one_le_left (mul_nonneg (mul_nonneg hA hW) hu.le) hn
    linarith
  have hWη0 : 0 ≤ W * η := by positivity
  have k3 : W * η * u ≤ W * η * (1 / 1000) := mul_le_mul_of_nonneg_left hu1 hWη0
  have k4 : η * u ≤ η * (1 / 1000) := mul_le_mul_of_nonneg_left hu1 hη.le
  have k5 : 0 ≤ n * u * B := by positivity
  have k6 : 0 ≤ n * u * (A * W) := by positivity
  have e1 : (101 / 100 * B + 102 / 100 * (A * W) + W * η + η) * u = 101 / 100 * (B * u) + 102 / 100 * (A * W * u) + W * η * u + η * u := by ring
  have e2 : (101 / 100 * (A * W) + W * η / 2) * u = 101 / 100 * (A * W * u) + W * η * u / 2 := by ring
  have e3 : W * (8 / 7 * (n * u) * A + η / 2) = 8 / 7 * (n * u * (A * W)) + W * η / 2 := by ring
  have e4 : 8 / 7 * (n * u) * B = 8 / 7 * (n * u * B) := by ring
  rw [e1] at hou
  rw [e2] at hpu
  rw [e3] at hx
  rw [e4] at eb
  linarith

section

variable {f : Fmt} {v w : List Flt} {p q : List ℚ} {A B : ℚ}

/-- The slope as a quotient and the intercept from it, for sums and means that are off by a little. -/
theorem line_near (hf : f = .double ∨ f = .single) {N : Nat} {x y a' b' : Flt} {σ δ a b D E F s mp mq : ℚ} (hn1 : (1 : ℚ) ≤ N)
    (hnu : (N : ℚ) * (1 / 2 ^ f.prec) ≤ 1 / 1000) (hA0 : 0 ≤ A) (hB0 : 0 ≤ B) (hE0 : 0 < E) (hF0 : 0 ≤ F) (hD : 2 * E ≤ D)
    (hσ : Stands f x σ) (hδ : Stands f y δ) (ha : Stands f a' a) (hb : Stands f b' b) (eσ : |σ - s * D| ≤ F) (eδ : |δ - D| ≤ E)
    (hma : |mp| ≤ A) (hmb : |mq| ≤ B) (ea : |a - mp| ≤ 8 / 7 * (N * (1 / 2 ^ f.prec)) * A + 2 ^ f.emin / 2)
    (eb : |b - mq| ≤ 8 / 7 * (N * (1 / 2 ^ f.prec)) * B + 2 ^ f.emin / 2)
    (hmS : 4 * (B + (|s| + (5 / 2 * ((F + |s| * E) / D) + |s| * (1 / 2 ^ f.prec) + 2 ^ f.emin)) * (A + 1)) ≤ f.maxVal) :
    ∃ ŝ o, Stands f (f.div x y) ŝ ∧ Stands f (f.sub b' (f.mul (f.div x y) a')) o ∧
      |ŝ - s| ≤ 5 / 2 * ((F + |s| * E) / D) + |s| * (1 / 2 ^ f.prec) + 2 ^ f.emin ∧
      |o - (mq - s * mp)| ≤ A * (5 / 2 * ((F + |s| * E) / D) + |s| * (1 / 2 ^ f.prec) + 2 ^ f.emin) +
        4 * N * (B + A * (|s| + (5 / 2 * ((F + |s| * E) / D) + |s| * (1 / 2 ^ f.prec) + 2 ^ f.emin))) / 2 ^ f.prec +
        2 * (1 + |s| + (5 / 2 * ((F + |s| * E) / D) + |s| * (1 / 2 ^ f.prec) + 2 ^ f.emin)) * 2 ^ f.emin := by
  obtain ⟨hu0, hη0, hη1, hη2, hM⟩ := stat_consts hf
  have hD0 : 0 < D := by linarith
  have hδD : D / 2 ≤ δ := by have := (abs_le.1 eδ).1; linarith
  have hδ0 : 0 < δ := by linarith
  -- the quotient before it is rounded
  have hK0 : 0 ≤ (F + |s| * E) / D := by positivity
  have hquo : |σ / δ - s| ≤ 2 * ((F + |s| * E) / D) := by
    have e : σ / δ - s = ((σ - s * D) + s * (D - δ)) / δ := by field_simp; ring
    rw [e, abs_div, abs_of_pos hδ0, div_le_iff₀ hδ0]
    have t := abs_add_le (σ - s * D) (s * (D - δ))
    rw [abs_mul, abs_sub_comm D δ] at t
    have t2 := mul_le_mul_of_nonneg_left eδ (abs_nonneg s)
    have t3 : F + |s| * E = (F + |s| * E) / D * D := by field_simp
    have t4 := mul_le_mul_of_nonneg_left hδD hK0
    linarith
  generalize (F + |s| * E) / D = K at *
  have hq1 : |σ / δ| ≤ |s| + 2 * K := by
    have := abs_add_le (σ / δ - s) s
    rw [sub_add_cancel] at this
    linarith
  have hr1 := srnd_err (f := f) (σ / δ)
  rw [div_eq_mul_one_div |σ / δ|] at hr1
  have hr2 := mul_le_mul_of_nonneg_right hq1 hu0.le
  have hu1 : 1 / (2 : ℚ) ^ f.prec ≤ 1 / 1000 := by
    refine le_trans ?_ hnu
    nlinarith
  have hKu := mul_le_mul_of_nonneg_left hu1 hK0
  have hsu : 0 ≤ |s| * (1 / 2 ^ f.prec) := by positivity
  have hS : |f.srnd (σ / δ) - s| ≤ 5 / 2 * K + |s| * (1 / 2 ^ f.prec) + 2 ^ f.emin := by
    have := abs_add_le (f.srnd (σ / δ) - σ / δ) (σ / δ - s)
    rw [sub_add_sub_cancel] at this
    linarith
  have hTK : 2 * K ≤ 5 / 2 * K + |s| * (1 / 2 ^ f.prec) + 2 ^ f.emin := by linarith
  generalize 5 / 2 * K + |s| * (1 / 2 ^ f.prec) + 2 ^ f.emin = T at *
  have hT0 : 0 ≤ T := (abs_nonneg _).trans hS
  have hW0 : 0 ≤ |s| + T := by positivity
  have hWA : 0 ≤ A * (|s| + T) := by positivity
  have hmS' : 4 * B + 4 * (A * (|s| + T)) + 4 * (|s| + T) ≤ f.maxVal := by linarith
  have hslope := div_stands hf hσ hδ hδ0.ne' (by linarith)
  generalize f.srnd (σ / δ) = ŝ at *
  have hŝ : |ŝ| ≤ |s| + T := by
    have := abs_add_le (ŝ - s) s
    rw [sub_add_cancel] at this
    linarith
  have ha1 : |a| ≤ 101 / 100 * A + 2 ^ f.emin / 2 := by
    have := abs_add_le (a - mp) mp
    rw [sub_add_cancel] at this
    have := mul_le_mul_of_nonneg_right hnu hA0
    linarith
  have hb1 : |b| ≤ 101 / 100 * B + 2 ^ f.emin / 2 := by
    have := abs_add_le (b - mq) mq
    rw [sub_add_cancel] at this
    have := mul_le_mul_of_nonneg_right hnu hB0
    linarith
  have hprod : |ŝ * a| ≤ 101 / 100 * (A * (|s| + T)) + (|s| + T) * 2 ^ f.emin / 2 := by
    rw [abs_mul]
    refine (mul_le_mul hŝ ha1 (abs_nonneg _) hW0).trans (le_of_eq (by ring))
  have hWη : (|s| + T) * 2 ^ f.emin ≤ (|s| + T) * (1 / 1000) := mul_le_mul_of_nonneg_left hη1 hW0
  have hπ := mul_stands hf hslope ha (by linarith)
  have eπ := srnd_err (f := f) (ŝ * a)
  rw [div_eq_mul_one_div |ŝ * a|] at eπ
  generalize f.srnd (ŝ * a) = π at *
  have hpu := mul_le_mul_of_nonneg_right hprod hu0.le
  have hpu1 := mul_le_mul_of_nonneg_left hu1 (abs_nonneg (ŝ * a))
  have hπ1 : |π| ≤ 102 / 100 * (A * (|s| + T)) + (|s| + T) * 2 ^ f.emin + 2 ^ f.emin / 2 := by
    have := abs_add_le (π - ŝ * a) (ŝ * a)
    rw [sub_add_cancel] at this
    have : 0 ≤ (|s| + T) * 2 ^ f.emin := by positivity
    linarith
  have hbπ : |b - π| ≤ 101 / 100 * B + 102 / 100 * (A * (|s| + T)) + (|s| + T) * 2 ^ f.emin + 2 ^ f.emin := by
    have := abs_sub b π
    linarith
  have hoff := sub_stands hf hb hπ (by linarith)
  have eo := srnd_err (f := f) (b - π)
  rw [div_eq_mul_one_div |b - π|] at eo
  refine ⟨ŝ, _, hslope, hoff, hS, ?_⟩
  generalize f.srnd (b - π) = o at *
  -- the product against the exact one
  have hx : |ŝ * a - s * mp| ≤ A * T + (|s| + T) * (8 / 7 * (N * (1 / 2 ^ f.prec)) * A + 2 ^ f.emin / 2) := by
    have e : ŝ * a - s * mp = (ŝ - s) * mp + ŝ * (a - mp) := by ring
    rw [e]
    refine (abs_add_le _ _).trans ?_
    rw [abs_mul, abs_mul]
    have k1 := mul_le_mul hS hma (abs_nonneg _) hT0
    have k2 := mul_le_mul hŝ ea (abs_nonneg _) hW0
    linarith
  have ht : |o - (mq - s * mp)| ≤ |o - (b - π)| + |b - mq| + |π - ŝ * a| + |ŝ * a - s * mp| := by
    have e : o - (mq - s * mp) = (o - (b - π)) + (b - mq) - (π - ŝ * a) - (ŝ * a - s * mp) := by ring
    rw [e]
    have k1 := abs_sub ((o - (b - π)) + (b - mq) - (π - ŝ * a)) (ŝ * a - s * mp)
    have k2 := abs_sub ((o - (b - π)) + (b - mq)) (π - ŝ * a)
    have k3 := abs_add_le (o - (b - π)) (b - mq)
    linarith
  have hou := mul_le_mul_of_nonneg_right hbπ hu0.le
  have e5 : 4 * (N : ℚ) * (B + A * (|s| + T)) / 2 ^ f.prec = 4 * (N * (1 / 2 ^ f.prec) * B) + 4 * (N * (1 / 2 ^ f.prec) * (A * (|s| + T))) := by
    ring
  have e6 : 2 * (1 + |s| + T) * (2 : ℚ) ^ f.emin = 2 * 2 ^ f.emin + 2 * ((|s| + T) * 2 ^ f.emin) := by ring
  rw [e5, e6]
  generalize |s| + T = W at *
  generalize 1 / (2 : ℚ) ^ f.prec = u at *
  generalize (2 : ℚ) ^ f.emin = η at *
  generalize (N : ℚ) = n at *
  exact offset_arith hu0 hu1 hη0 hn1 hA0 hB0 hW0 eo hou eb eπ hpu hx ht

/-- C138. The slope and the intercept are right to an error that depends on how far the values of x are apart. -/
theorem C138_error (hf : f = .double ∨ f = .single) (hv : List.Forall₂ (Stands f) v p) (hw : List.Forall₂ (Stands f) w q) (hl : p.length = q.length)
    (hA : ∀ x ∈ p, |x| ≤ A) (hB : ∀ x ∈ q, |x| ≤ B) (hn : 1000 * p.length ≤ 2 ^ f.prec) (hD : 2 * deviationError f p.length A A ≤ deviations (mean p) (mean p) p p)
    (h0 : p ≠ []) (hmA : 8 * (p.length * A) ≤ f.maxVal) (hmB : 8 * (p.length * B) ≤ f.maxVal) (hmAA : 8 * (p.length * (A * A)) ≤ f.maxVal)
    (hmAB : 8 * (p.length * (A * B)) ≤ f.maxVal) (hmS : 4 * (B + (|slope p q| + slopeError f p q A B) * (A + 1)) ≤ f.maxVal) :
    ∃ l s o, FloatMath.linearRegression f v w = .ok l ∧ Stands f l.slope s ∧ Stands f l.offset o ∧ |s - slope p q| ≤ slopeError f p q A B ∧
      |o - intercept p q| ≤ A * slopeError f p q A B + 4 * p.length * (B + A * (|slope p q| + slopeError f p q A B)) / 2 ^ f.prec +
        2 * (1 + |slope p q| + slopeError f p q A B) * 2 ^ f.emin := by
  have hlv := hv.length_eq
  have hlw := hw.length_eq
  obtain ⟨_, rfl, hr⟩ := flinear_eq f (v := v) (w := w) (by omega)
  obtain ⟨hu0, hη0, hη1, hη2, hM⟩ := stat_consts hf
  have hq0 : q ≠ [] := by rw [← List.length_pos_iff] at h0 ⊢; omega
  have hn1 : (1 : ℚ) ≤ p.length := by
    have : 0 < p.length := List.length_pos_iff.2 h0
    exact_mod_cast this
  have hnu : (p.length : ℚ) * (1 / 2 ^ f.prec) ≤ 1 / 1000 := by
    rw [mul_one_div, div_le_iff₀ (by positivity)]
    have : (1000 : ℚ) * p.length ≤ 2 ^ f.prec := by exact_mod_cast hn
    linarith
  have hA0 : 0 ≤ A := (abs_nonneg _).trans (mean_abs_le h0 hA)
  have hB0 : 0 ≤ B := (abs_nonneg _).trans (mean_abs_le hq0 hB)
  obtain ⟨a, ha, ea⟩ := mean_near hf hv h0 hA hnu hmA
  obtain ⟨b, hb, eb⟩ := mean_near hf hw hq0 hB (by rw [← hl]; exact hnu) (by rw [← hl]; exact hmB)
  rw [← hl] at eb
  obtain ⟨σ, hσ, eσ⟩ := devSum_near hf hv hw (by omega) h0 hA hB hnu hmA hmB hmAB
  obtain ⟨δ, hδ, eδ⟩ := devSum_near hf hv hv rfl h0 hA hA hnu hmA hmA hmAA
  change |σ - _| ≤ deviationError f p.length A B at eσ
  change |δ - _| ≤ deviationError f p.length A A at eδ
  have hE0 : 0 < deviationError f p.length A A := by unfold deviationError; positivity
  have hF0 : 0 ≤ deviationError f p.length A B := by unfold deviationError; positivity
  have hs : deviations (mean p) (mean q) p q = slope p q * deviations (mean p) (mean p) p p := by
    unfold slope
    rw [div_mul_cancel₀]
    linarith
  have hma := mean_abs_le h0 hA
  have hmb := mean_abs_le hq0 hB
  unfold slopeError at hmS ⊢
  unfold intercept
  rw [hs] at eσ
  obtain ⟨ŝ, o, h1, h2, h3, h4⟩ := line_near hf hn1 hnu hA0 hB0 hE0 hF0 hD hσ hδ ha hb eσ eδ hma hmb ea eb hmS
  exact ⟨_, ŝ, o, hr, h1, h2, h3, h4⟩

end

/-- C138. Lines for points of which there are not as many x as y are refused, and there are always lines otherwise. -/
theorem C138_refused (f : Fmt) (v w : List Flt) : (v.length ≠ w.length → FloatMath.linearRegression f v w = .throws .assertion) ∧
    (v.length = w.length → ∃ l, FloatMath.linearRegression f v w = .ok l) := by
  refine ⟨fun h => if_pos h, fun h => ?_⟩
  obtain ⟨_, -, h⟩ := flinear_eq f h
  exact ⟨_, h⟩

/-- C138. With a value that is infinite or not a number there is no line. -/
theorem C138_not_finite (f : Fmt) (v w : List Flt) (hl : v.length = w.length) (h : ∃ x ∈ v ++ w, NotFinite x) :
    ∃ l, FloatMath.linearRegression f v w = .ok l ∧ NotNumber l.slope ∧ NotNumber l.offset := by
  obtain ⟨_, rfl, hr⟩ := flinear_eq f hl
  obtain ⟨x, hx, hn⟩ := h
  have hs : NotNumber (f.div (devSum f (average f v) (average f w) v w) (devSum f (average f v) (average f v) v v)) := by
    apply div_notNumber
    rcases List.mem_append.1 hx with hx | hx
    · exact devSum_notNumber f _ hl hx hn
    · rw [devSum_comm]
      exact devSum_notNumber f _ hl.symm hx hn
  refine ⟨_, hr, hs, ?_⟩
  refine add_notNumber f (.inr ?_)
  have : NotNumber (f.mul (f.div (devSum f (average f v) (average f w) v w) (devSum f (average f v) (average f v) v v)) (average f v)) := by
    rw [f.mul_comm]; exact mul_notNumber f hs
  rw [notNumber_iff] at this ⊢
  obtain ⟨s, hs⟩ := this
  rw [hs]
  exact ⟨_, rfl⟩

/-! ### Turning the points upside down -/

theorem div_pos_congr (f : Fmt) {x x' y : Flt} (h : Proper x) (h' : Proper x') (hx : x.pos = x'.pos) : (f.div x y).pos = (f.div x' y).pos := by
  rcases pos_cases hx with ⟨t, n, t', n', rfl, rfl, e⟩ | ⟨t, rfl, rfl⟩ | ⟨t, t', rfl, rfl⟩
  · rcases proper_cases (h _ _ rfl) (h' _ _ rfl) e with ⟨rfl, rfl⟩ | ⟨rfl, rfl⟩
    · rfl
    · rcases y with ⟨s, m⟩ | s | s
      · by_cases hm : m = 0
        · simp [Fmt.div, hm]
        · simp only [Fmt.div, if_neg hm, zero_div, neg_zero, ite_self]
          exact result_pos _ _ _ _
      · simp only [Fmt.div]
        cases t <;> cases t' <;> cases s <;> simp [Flt.pos]
      · rfl
  · rfl
  · cases y <;> rfl

theorem div_neg_pos (f : Fmt) (x y : Flt) : (f.div x.neg y).pos = (f.div x y).neg.pos := by
  rcases x with ⟨s, m⟩ | s | s <;> rcases y with ⟨t, n⟩ | t | t
  · by_cases hn : n = 0
    · by_cases hm : m = 0
      · simp [Fmt.div, hn, hm, Flt.neg, Flt.pos]
      · simp only [Fmt.div, hn, hm, Flt.neg, if_true, if_false]
        cases s <;> cases t <;> rfl
    · change (if n = 0 then _ else f.result ((!s) != t) (if ((!s) != t) = true then -(m / n) else m / n)).pos =
        (if n = 0 then _ else f.result (s != t) (if (s != t) = true then -(m / n) else m / n)).neg.pos
      rw [if_neg hn, if_neg hn, ← result_neg_pos f ((!s) != t) (s != t)]
      congr 2
      cases s <;> cases t <;> simp
  all_goals first | rfl | (cases s <;> cases t <;> simp [Fmt.div, Flt.neg, Flt.pos]) | (cases s <;> cases t <;> rfl)

/-- The second value is the first one with the other sign. -/
def Opposite (x y : Flt) : Prop := y.pos = x.neg.pos ∧ Proper x ∧ Proper y

theorem div_proper (f : Fmt) (x y : Flt) : Proper (f.div x y) := by
  intro s m h
  rcases x with ⟨s, a⟩ | s | s <;> rcases y with ⟨t, b⟩ | t | t
  · simp only [Fmt.div] at h
    split at h
    · split at h <;> cases h
    · exact result_proper _ _ _ _ _ h
  all_goals simp only [Fmt.div] at h; cases h
  exact le_refl _

theorem Opposite.add (f : Fmt) {x x' y y' : Flt} (hx : Opposite x x') (hy : Opposite y y') : Opposite (f.add x y) (f.add x' y') :=
  ⟨(add_pos_congr f hx.1 hy.1).trans (add_neg_pos f x y), add_proper _ _ _, add_proper _ _ _⟩

theorem Opposite.neg {x x' : Flt} (hx : Opposite x x') : Opposite x.neg x'.neg :=
  ⟨neg_pos_congr hx.1, neg_proper hx.2.1, neg_proper hx.2.2⟩

theorem Opposite.mul (f : Fmt) (c : Flt) {x x' : Flt} (hx : Opposite x x') : Opposite (f.mul c x) (f.mul c x') :=
  ⟨(mul_pos_congr f hx.2.2 (neg_proper hx.2.1) hx.1).trans (mul_neg_pos f c x), mul_proper _ _ _, mul_proper _ _ _⟩

theorem Opposite.div (f : Fmt) (c : Flt) {x x' : Flt} (hx : Opposite x x') : Opposite (f.div x c) (f.div x' c) :=
  ⟨(div_pos_congr f hx.2.2 (neg_proper hx.2.1) hx.1).trans (div_neg_pos f x c), div_proper _ _ _, div_proper _ _ _⟩

theorem Opposite.zero : Opposite (.fin false 0) (.fin false 0) := by
  refine ⟨by simp [Flt.neg, Flt.pos], ?_, ?_⟩ <;> (intro s m h; cases h; exact le_refl _)

theorem Opposite.sum (f : Fmt) {v w : List Flt} (h : List.Forall₂ Opposite v w) : ∀ x y, Opposite x y → Opposite (v.foldl f.add x) (w.foldl f.add y) := by
  induction h with
  | nil => intro x y h; exact h
  | cons h _ ih => intro x y hxy; exact ih _ _ (hxy.add f h)

theorem Opposite.average (f : Fmt) {v w : List Flt} (h : List.Forall₂ Opposite v w) : Opposite (average f v) (average f w) := by
  unfold FloatMath.average
  rw [← h.length_eq]
  exact (Opposite.sum f h _ _ .zero).div f _

/-- C138. With the other sign for each y, the line has the other sign: the same slope and intercept, negated. -/
theorem C138_negate (f : Fmt) (v w : List Flt) (hl : v.length = w.length) (hw : ∀ y ∈ w, IsFloat f y) :
    ∃ l l', FloatMath.linearRegression f v w = .ok l ∧ FloatMath.linearRegression f v (w.map Flt.neg) = .ok l' ∧
      l'.slope.pos = l.slope.neg.pos ∧ l'.offset.pos = l.offset.neg.pos := by
  obtain ⟨_, rfl, hr⟩ := flinear_eq f hl
  obtain ⟨_, rfl, hr'⟩ := flinear_eq f (v := v) (w := w.map Flt.neg) (by simpa using hl)
  have hop : List.Forall₂ Opposite w (w.map Flt.neg) := by
    rw [List.forall₂_map_right_iff, List.forall₂_same]
    exact fun y hy => ⟨rfl, .of (hw y hy), neg_proper (.of (hw y hy))⟩
  have hav := Opposite.average f hop
  have hsum : Opposite (devSum f (average f v) (average f w) v w) (devSum f (average f v) (average f (w.map Flt.neg)) v (w.map Flt.neg)) := by
    refine Opposite.sum f ?_ _ _ .zero
    generalize w.map Flt.neg = w' at *
    generalize average f v = a
    generalize average f w = b at *
    generalize average f w' = b' at *
    clear hr hr' hl hw
    induction hop generalizing v with
    | nil => cases v <;> exact .nil
    | cons h _ ih =>
      cases v with
      | nil => exact .nil
      | cons x v =>
        refine .cons ?_ (ih v)
        exact (h.add f hav.neg).mul f _
  have hs := hsum.div f (devSum f (average f v) (average f v) v v)
  refine ⟨_, _, hr, hr', hs.1, ?_⟩
  have hm := hs.mul f (average f v)
  rw [f.mul_comm, f.mul_comm (average f v)] at hm
  exact (hav.add f hm.neg).1

/-- C138 fails for points on a vertical line: there may be a slope. (x is 0.1 three times, y is 1, 2, 4.) -/
theorem C138_vertical_refuted : ∃ x : Flt, IsFloat .double x ∧
    ∃ l m, FloatMath.linearRegression .double [x, x, x] [.fin false 1, .fin false 2, .fin false 4] = .ok l ∧ l.slope = .fin false m ∧ 10 < m ∧ m < 11 :=
  ⟨.fin false (3602879701896397 / 2 ^ 55), (stands_double false (n := 3602879701896397) (e := 55) (by norm_num) (by norm_num)).1,
    ⟨.fin false (1426139882000657 / 1125899906842624), .fin false (6004799503160661 / 562949953421312)⟩, 6004799503160661 / 562949953421312,
    by decide +kernel, rfl, by norm_num, by norm_num⟩

/-- C138 fails for points that are exactly on a line: it may be another line that is found. (y = 3 x.) -/
theorem C138_line_refuted : FloatMath.linearRegression .double [.fin false 1, .fin false 2, .fin false 4] [.fin false 3, .fin false 6, .fin false 12] =
    .ok ⟨.fin true (1 / 2 ^ 49), .fin false (3 + 1 / 2 ^ 51)⟩ := by decide +kernel

/-- C138. In single precision, three points on a line with slope 1/2 may give a line with slope 0.2 that passes millions below them at zero:
x is a little more than 2 ^ 24. -/
theorem C138_far_refuted : ∃ o s : ℚ, FloatMath.linearRegression .single [.fin false (2 ^ 24 + 42), .fin false (2 ^ 24 + 44), .fin false (2 ^ 24 + 46)]
    [.fin false 21, .fin false 22, .fin false 23] = .ok ⟨.fin true o, .fin false s⟩ ∧ s < 21 / 100 ∧
    Flut.linearRegression [(2 : ℚ) ^ 24 + 42, 2 ^ 24 + 44, 2 ^ 24 + 46] [21, 22, 23] = .ok ⟨-2 ^ 23, 1 / 2⟩ :=
  ⟨6710861 / 2, 13421773 / 67108864, by decide +kernel, by norm_num, by decide +kernel⟩

/-- A case within the bounds: the line through 1, 3 and 2, 5 and 4, 9. -/
example : List.Forall₂ (Stands .double) [.fin false 1, .fin false 2, .fin false 4] [1, 2, 4] ∧ (∀ x ∈ [(1 : ℚ), 2, 4], |x| ≤ 4) ∧ (∀ x ∈ [(3 : ℚ), 5, 9], |x| ≤ 9) ∧
    2 * deviationError .double 3 4 4 ≤ deviations (mean [1, 2, 4]) (mean [1, 2, 4]) [1, 2, 4] [1, 2, 4] ∧
    slope [1, 2, 4] [3, 5, 9] = 2 ∧ intercept [1, 2, 4] [3, 5, 9] = 1 ∧ slopeError .double [1, 2, 4] [3, 5, 9] 4 9 ≤ 1 / 10 ^ 12 ∧
    4 * (9 + (|slope [1, 2, 4] [3, 5, 9]| + slopeError .double [1, 2, 4] [3, 5, 9] 4 9) * (4 + 1)) ≤ Fmt.double.maxVal := by
  refine ⟨?_, by decide +kernel, by decide +kernel, by decide +kernel, by decide +kernel, by decide +kernel, by decide +kernel, by decide +kernel⟩
  refine .cons ?_ (.cons ?_ (.cons ?_ .nil))
  · simpa using stands_double false (n := 1) (e := 0) (by norm_num) (by norm_num)
  · simpa using stands_double false (n := 2) (e := 0) (by norm_num) (by norm_num)
  · simpa using stands_double false (n := 4) (e := 0) (by norm_num) (by norm_num)

end Flut
