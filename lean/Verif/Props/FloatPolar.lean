import Verif.Model.FloatPolar
import Verif.Props.FloatEuler

/-! # C159: vectors from polar coordinates in floating-point arithmetic -/

namespace Flut

open Spec FloatMath Quaternion

/-- Sine and cosine of an angle in its unit. -/
theorem trig_angle {f : Fmt} (hf : f = .double ∨ f = .single) {L : Libm} {k : ℝ} (hL : Accurate f k L) (hk : k / 2 ^ f.prec ≤ 1 / 1000) (u : AngleUnit)
    {x : Flt} {a : ℝ} (hx : StandsReal f x a) :
    ∃ c s, StandsReal f (L.cos (radValue f u x)) c ∧ StandsReal f (L.sin (radValue f u x)) s ∧
      |c - Real.cos (exactAngle u a)| ≤ (k + unitErr u a + 1 / 1000) * (1 / 2 ^ f.prec) ∧
      |s - Real.sin (exactAngle u a)| ≤ (k + unitErr u a + 1 / 1000) * (1 / 2 ^ f.prec) ∧ |c| ≤ 1001 / 1000 ∧ |s| ≤ 1001 / 1000 ∧ 0 ≤ k * (1 / 2 ^ f.prec) := by
  have hsm := emin_small hf
  rw [← mul_one_div k] at hk
  obtain ⟨t, st, et⟩ := radValue_close hf u hx
  obtain ⟨c, sc, ec⟩ := hL.cos _ t st
  obtain ⟨s, ss, es⟩ := hL.sin _ t st
  have lc := Real.abs_cos_sub_cos_le t (exactAngle u a)
  have ls := Real.abs_sin_sub_sin_le t (exactAngle u a)
  have h1 := abs_sub_le c (Real.cos t) (Real.cos (exactAngle u a))
  have h2 := abs_sub_le s (Real.sin t) (Real.sin (exactAngle u a))
  have h3 := abs_sub_abs_le_abs_sub c (Real.cos t)
  have h4 := abs_sub_abs_le_abs_sub s (Real.sin t)
  have h5 := Real.abs_cos_le_one t
  have h6 := Real.abs_sin_le_one t
  refine ⟨c, s, sc, ss, ?_, ?_, by linarith, by linarith, (abs_nonneg _).trans ec⟩ <;> linarith

/-- A radius times a sine or cosine. -/
theorem times_close {f : Fmt} (hf : f = .double ∨ f = .single) {x y : Flt} {m s R M S E : ℝ} (hx : StandsReal f x m) (hy : StandsReal f y s)
    (hm : |m| ≤ 1002 / 1000 * R + 2 ^ f.emin) (hR : R ≤ f.maxVal / 2) (hM : |M| ≤ R) (hs : |s - S| ≤ E) (hs1 : |s| ≤ 1001 / 1000) :
    ∃ p, StandsReal f (f.mul x y) p ∧ |p - M * S| ≤ 1001 / 1000 * |m - M| + R * E + 1004 / 1000 * (1 / 2 ^ f.prec) * R + 51 / 100 * 2 ^ f.emin := by
  obtain ⟨hu0, hu, hn0, hn', hMax⟩ := real_consts hf
  have hM1 : (100 : ℝ) ≤ f.maxVal := le_trans (by norm_num) hMax
  have R0 : 0 ≤ R := (abs_nonneg _).trans hM
  have hms : |m * s| ≤ 1004 / 1000 * R + 1001 / 1000 * 2 ^ f.emin := by
    rw [abs_mul]
    have := mul_le_mul hm hs1 (abs_nonneg _) (by positivity)
    linarith
  obtain ⟨p, sp, ep⟩ := mul_real hf hx hy (by linarith)
  refine ⟨p, sp, ?_⟩
  have e1 : |p - m * s| ≤ 1004 / 1000 * (1 / 2 ^ f.prec) * R + 51 / 100 * 2 ^ f.emin := by
    have h1 := mul_le_mul_of_nonneg_left hms hu0.le
    have h2 : 1 / 2 ^ f.prec * (1001 / 1000 * 2 ^ f.emin) ≤ (1 / 16777216 : ℝ) * (1001 / 1000 * 2 ^ f.emin) :=
      mul_le_mul_of_nonneg_right hu (by positivity)
    linarith
  have e2 : |m * s - M * s| ≤ 1001 / 1000 * |m - M| := by
    rw [← sub_mul, abs_mul, mul_comm]
    exact mul_le_mul_of_nonneg_right hs1 (abs_nonneg _)
  have e3 : |M * s - M * S| ≤ R * E := by
    rw [← mul_sub, abs_mul]
    exact mul_le_mul hM hs (abs_nonneg _) R0
  have t1 := abs_sub_le p (m * s) (M * S)
  have t2 := abs_sub_le (m * s) (M * s) (M * S)
  linarith

theorem polar_norm {x y z X Y Z B : ℝ} (B0 : 0 ≤ B / 2) (hx : |x - X| ≤ B / 2) (hy : |y - Y| ≤ B / 2) (hz : |z - Z| ≤ B / 2) :
    ‖quatOf 0 x y z - quatOf 0 X Y Z‖ ≤ B := by
  have := norm_le4 (Q := quatOf 0 x y z - quatOf 0 X Y Z) (E := B / 2) (by simpa using B0) (by simpa using hx) (by simpa using hy) (by simpa using hz)
  linarith

theorem polar_arith {R u k a1 a2 D η : ℝ} (k0 : 0 ≤ k * u) (h1 : 0 ≤ a1) (h2 : 0 ≤ a2) (hu : 0 < u) (hR : 0 ≤ R) (hη : 0 < η)
    (hd : (a1 + a2) * u * R * (2002 / 1000) ≤ D * u * R) :
    0 ≤ ((5 * k + 5 + D) * u * R + 3 * η) / 2 ∧
    (∀ {e : ℝ}, e ≤ 1001 / 1000 * (R * ((k + a1 + 1 / 1000) * u) + 1004 / 1000 * u * R + 51 / 100 * η) + R * ((k + a2 + 1 / 1000) * u) + 1004 / 1000 * u * R +
      51 / 100 * η → e ≤ ((5 * k + 5 + D) * u * R + 3 * η) / 2) ∧
    (∀ {e : ℝ}, e ≤ R * ((k + a1 + 1 / 1000) * u) + 1004 / 1000 * u * R + 51 / 100 * η → e ≤ ((5 * k + 5 + D) * u * R + 3 * η) / 2) := by
  have p1 : 0 ≤ a1 * u * R := by positivity
  have p2 : 0 ≤ a2 * u * R := by positivity
  have p3 : 0 ≤ k * u * R := mul_nonneg k0 hR
  have p4 : 0 ≤ u * R := by positivity
  refine ⟨by linarith, fun he => by linarith, fun he => by linarith⟩

/-- The vector is near the one with the given length, inclination (from the second axis) and azimuth (from the third axis towards the first). -/
theorem C159_polar (f : Fmt) (hf : f = .double ∨ f = .single) (L : Libm) (k : ℝ) (hL : Accurate f k L) (hk : k / 2 ^ f.prec ≤ 1 / 1000) (u : AngleUnit)
    (radius incl azim : Flt) (r i a : ℝ) (hr : StandsReal f radius r) (hi : StandsReal f incl i) (ha : StandsReal f azim a) (hb : |r| ≤ f.maxVal / 2) :
    ∃ V, StandsVec f (polarVec f L radius u incl azim) V ∧
      ‖V - quatOf 0 (r * Real.sin (exactAngle u i) * Real.sin (exactAngle u a)) (r * Real.cos (exactAngle u i))
        (r * Real.sin (exactAngle u i) * Real.cos (exactAngle u a))‖ ≤
        (5 * k + 5 + (if u = .degrees then 27 * (|exactAngle u i| + |exactAngle u a|) else 0)) / 2 ^ f.prec * |r| + 3 * 2 ^ f.emin := by
  obtain ⟨hu0, hu, hn0, hn', hMax⟩ := real_consts hf
  obtain ⟨ci, si, sci, ssi, eci, esi, bci, bsi, k0⟩ := trig_angle hf hL hk u hi
  obtain ⟨ca, sa, sca, ssa, eca, esa, bca, bsa, _⟩ := trig_angle hf hL hk u ha
  have r0 := abs_nonneg r
  have u1 := unitErr_nonneg u i
  have u2 := unitErr_nonneg u a
  have sI := Real.abs_sin_le_one (exactAngle u i)
  have br : |r| ≤ 1002 / 1000 * |r| + 2 ^ f.emin := by linarith
  obtain ⟨m, sm, em⟩ := times_close hf hr ssi br hb le_rfl esi bsi
  obtain ⟨y, sy, ey⟩ := times_close hf hr sci br hb le_rfl eci bci
  rw [sub_self, abs_zero, mul_zero, zero_add] at em ey
  have bm : |m| ≤ 1002 / 1000 * |r| + 2 ^ f.emin := by
    have hms : |r * si| ≤ 1001 / 1000 * |r| := by
      rw [abs_mul, mul_comm]
      exact mul_le_mul_of_nonneg_right bsi r0
    have hM1 : (100 : ℝ) ≤ f.maxVal := le_trans (by norm_num) hMax
    obtain ⟨m', sm', em'⟩ := mul_real hf hr ssi (by linarith)
    rw [stands_unique sm sm']
    have h1 := abs_sub_abs_le_abs_sub m' (r * si)
    have h2 : 1 / 2 ^ f.prec * |r * si| ≤ (1 / 16777216 : ℝ) * (1001 / 1000 * |r|) := mul_le_mul hu hms (abs_nonneg _) (by norm_num)
    linarith
  have bM : |r * Real.sin (exactAngle u i)| ≤ |r| := by
    rw [abs_mul]
    exact mul_le_of_le_one_right r0 sI
  obtain ⟨x, sx, ex⟩ := times_close hf sm ssa bm hb bM esa bsa
  obtain ⟨z, sz, ez⟩ := times_close hf sm sca bm hb bM eca bca
  refine ⟨quatOf 0 x y z, ⟨rfl, sx, sy, sz⟩, ?_⟩
  have hd : (unitErr u i + unitErr u a) * (1 / 2 ^ f.prec) * |r| * (2002 / 1000) ≤
      (if u = .degrees then 27 * (|exactAngle u i| + |exactAngle u a|) else 0) * (1 / 2 ^ f.prec) * |r| := by
    unfold unitErr
    split_ifs
    · have : 0 ≤ (|exactAngle u i| + |exactAngle u a|) * (1 / 2 ^ f.prec) * |r| := by positivity
      nlinarith
    · simp
  rw [← mul_one_div (5 * k + 5 + _)]
  obtain ⟨B0, fin, fin'⟩ := polar_arith k0 u1 u2 hu0 r0 hn0 hd
  exact polar_norm B0 (fin (by linarith)) (fin' ey) (fin (by linarith))

/-- Its length is near the radius. -/
theorem C159_length (f : Fmt) (hf : f = .double ∨ f = .single) (L : Libm) (k : ℝ) (hL : Accurate f k L) (hk : k / 2 ^ f.prec ≤ 1 / 1000) (u : AngleUnit)
    (radius incl azim : Flt) (r i a : ℝ) (hr : StandsReal f radius r) (hi : StandsReal f incl i) (ha : StandsReal f azim a) (hb : |r| ≤ f.maxVal / 2) :
    ∃ V, StandsVec f (polarVec f L radius u incl azim) V ∧
      abs (‖V‖ - |r|) ≤ (5 * k + 5 + (if u = .degrees then 27 * (|exactAngle u i| + |exactAngle u a|) else 0)) / 2 ^ f.prec * |r| + 3 * 2 ^ f.emin := by
  obtain ⟨V, sV, h⟩ := C159_polar f hf L k hL hk u radius incl azim r i a hr hi ha hb
  refine ⟨V, sV, le_trans ?_ h⟩
  have n : ‖quatOf 0 (r * Real.sin (exactAngle u i) * Real.sin (exactAngle u a)) (r * Real.cos (exactAngle u i))
        (r * Real.sin (exactAngle u i) * Real.cos (exactAngle u a))‖ = |r| := by
    rw [← abs_of_nonneg (norm_nonneg (quatOf _ _ _ _)), ← sq_eq_sq_iff_abs_eq_abs, norm_sq4]
    simp
    have h1 := Real.sin_sq_add_cos_sq (exactAngle u i)
    have h2 := Real.sin_sq_add_cos_sq (exactAngle u a)
    linear_combination r ^ 2 * h1 + r ^ 2 * Real.sin (exactAngle u i) ^ 2 * h2
  have := abs_norm_sub_norm_le V (quatOf 0 (r * Real.sin (exactAngle u i) * Real.sin (exactAngle u a)) (r * Real.cos (exactAngle u i))
        (r * Real.sin (exactAngle u i) * Real.cos (exactAngle u a)))
  rwa [n] at this

/-- Two units away, straight up, in `float`. -/
example : ∃ L, Accurate .single 8 L ∧ ∃ V, StandsVec .single (polarVec .single L (.fin false 2) .degrees (.fin false 0) (.fin false 90)) V ∧
    ‖V - quatOf 0 0 2 0‖ ≤ 1000 / 2 ^ 24 := by
  have hs : Fmt.single = .double ∨ Fmt.single = .single := .inr rfl
  obtain ⟨L, hL⟩ := accurate_exists hs
  have z0 : StandsReal .single (.fin false 0) 0 := ⟨0, zero_stands .single hs false, by norm_num⟩
  have o2 : StandsReal .single (.fin false 2) 2 :=
    ⟨2, ⟨⟨by norm_num, by decide +kernel, by simpa using pow_binary hs 1⟩, rfl⟩, by norm_num⟩
  have o90 : StandsReal .single (.fin false 90) 90 :=
    ⟨90, ⟨⟨by norm_num, by decide +kernel, ⟨90, 0, by norm_num [Fmt.single], by norm_num [Fmt.single], by norm_num⟩⟩, rfl⟩, by norm_num⟩
  obtain ⟨V, sV, h⟩ := C159_polar .single hs L 8 hL (by norm_num [Fmt.single]) .degrees _ _ _ 2 0 90 o2 z0 o90
    (by rw [abs_two]; exact_mod_cast (by decide +kernel : (2 : ℚ) ≤ Fmt.single.maxVal / 2))
  refine ⟨L, hL, V, sV, ?_⟩
  have hp := Real.pi_lt_d2
  have hp0 := Real.pi_pos
  simp only [exactAngle, zero_mul, Real.sin_zero, Real.cos_zero, mul_zero, mul_one, abs_zero, zero_add, if_true] at h
  rw [abs_two, abs_of_nonneg (by positivity), show Fmt.single.prec = 24 from rfl, show Fmt.single.emin = -149 from rfl] at h
  refine h.trans ?_
  norm_num at *
  linarith

end Flut
