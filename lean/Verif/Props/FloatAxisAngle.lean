import Verif.Proofs.FloatAxisAngle

/-! # C156: the axis and angle of a quaternion, in floating-point arithmetic -/

namespace Flut

open Spec FloatMath Quaternion

/-- Below the threshold the axis is the first one and the angle zero. Above it the axis is close to the direction of the imaginary part, to
the accuracy of `float` for both formats. The half of the angle is close to the arc cosine of the real part, or the angle is not a number. -/
theorem C156_axis_angle_partial (f : Fmt) (hf : f = .double ∨ f = .single) (L : Libm) (k : ℝ) (hL : Accurate f k L) (hk : k / 2 ^ f.prec ≤ 1 / 1000)
    (q : Quat Flt) (Q : ℍ[ℝ]) (hq : StandsQuat f q Q) (hb : ‖Q.im‖ ^ 2 ≤ f.maxVal / 2) :
    (4 * ‖Q.im‖ ^ 2 ≤ (2 / 2 ^ f.prec) ^ 2 → quatAxisAngle f L q = (⟨.fin false 1, .fin false 0, .fin false 0⟩, .fin false 0)) ∧
    (2 * (2 / 2 ^ f.prec) ^ 2 ≤ ‖Q.im‖ ^ 2 →
      (∃ V, StandsVec f (quatAxisAngle f L q).1 V ∧ ‖V - ‖Q.im‖⁻¹ • Q.im‖ ≤ (if f = .double then 3 else 11) / 2 ^ 24) ∧
      (|Q.re| ≤ 1 → ∃ t, StandsReal f (quatAxisAngle f L q).2 t ∧ |t / 2 - Real.arccos Q.re| ≤ k / 2 ^ f.prec) ∧
      (1 < |Q.re| → (quatAxisAngle f L q).2 = .nan false)) := by
  obtain ⟨hu0, hu, hn0, hn', hM⟩ := real_consts hf
  have hM1 : (100 : ℝ) ≤ f.maxVal := le_trans (by norm_num) hM
  obtain ⟨h1, h2⟩ := normalize_real hf (stands_im hq) hb
  refine ⟨fun h => by rw [quatAxisAngle_eq, h1 h]; rfl, fun h => ?_⟩
  obtain ⟨e, _, ⟨x, sx, ex⟩, ⟨y, sy, ey⟩, ⟨z, sz, ez⟩⟩ := h2 h
  rw [quatAxisAngle_eq, if_pos e]
  refine ⟨?_, fun h => ?_, fun h => ?_⟩
  · obtain ⟨_, i1, i2, i3⟩ := abs_le_norm Q.im
    have key : ∀ {x r : ℝ}, |r| ≤ ‖Q.im‖ → |x - r / ‖Q.im‖| ≤ 501 / 100 * (1 / 2 ^ f.prec) → |x| ≤ 11 / 10 := by
      intro x r hr hx
      have : |r / ‖Q.im‖| ≤ 1 := by rw [abs_div, abs_norm]; exact div_le_one_of_le₀ hr (norm_nonneg _)
      have := abs_add_le (x - r / ‖Q.im‖) (r / ‖Q.im‖)
      rw [sub_add_cancel] at this
      linarith
    obtain ⟨x', sx', ex'⟩ := toFloat_close hf sx (key i1 ex)
    obtain ⟨y', sy', ey'⟩ := toFloat_close hf sy (key i2 ey)
    obtain ⟨z', sz', ez'⟩ := toFloat_close hf sz (key i3 ez)
    refine ⟨quatOf 0 x' y' z', ⟨rfl, sx', sy', sz'⟩, ?_⟩
    have tot : ∀ {a b c : ℝ}, |a - b| ≤ (if f = .double then 12 / 10 / 2 ^ 24 else 0) → |b - c| ≤ 501 / 100 * (1 / 2 ^ f.prec) →
        |a - c| ≤ (if f = .double then 3 else 11) / 2 ^ 24 / 2 := by
      intro a b c h1 h2
      refine (abs_sub_le a b c).trans ((add_le_add h1 h2).trans ?_)
      rcases hf with rfl | rfl
      · simp only [if_true, show Fmt.double.prec = 53 from rfl]; norm_num
      · rw [if_neg (by decide), if_neg (by decide), show Fmt.single.prec = 24 from rfl]; norm_num
    have bound : ∀ E : ℝ, ‖quatOf 0 x' y' z' - ‖Q.im‖⁻¹ • Q.im‖ ≤ 2 * (E / 2) → ‖quatOf 0 x' y' z' - ‖Q.im‖⁻¹ • Q.im‖ ≤ E := fun E h => by linarith
    apply bound
    have pos : (0 : ℝ) ≤ (if f = .double then 3 else 11) / 2 ^ 24 / 2 := by split_ifs <;> norm_num
    refine norm_le4 ?_ ?_ ?_ ?_
    · simpa using pos
    · have := tot ex' ex
      simpa [div_eq_inv_mul] using this
    · have := tot ey' ey
      simpa [div_eq_inv_mul] using this
    · have := tot ez' ez
      simpa [div_eq_inv_mul] using this
  · obtain ⟨t, st, et⟩ := hL.acos _ _ hq.1 h
    have ht : |t| ≤ 5 := by
      have p0 := Real.arccos_nonneg Q.re
      have p1 := (Real.arccos_le_pi Q.re).trans Real.pi_le_four
      rw [mul_one_div] at et
      rw [abs_le] at et ⊢
      constructor <;> linarith
    refine ⟨2 * t, double_real hf st ?_, ?_⟩
    · rw [abs_mul, abs_of_pos (by norm_num : (0 : ℝ) < 2)]; linarith
    · rw [show 2 * t / 2 = t by ring, ← mul_one_div]; exact et
  · change f.mul (.fin false 2) (L.acos q.w) = _
    rw [hL.domain _ _ hq.1 h]
    rfl

/-- A quaternion of length nearly one, made again from its axis and angle: if the axis is accepted, the result is within the root of the
precision. -/
theorem C156_again_partial (f : Fmt) (hf : f = .double ∨ f = .single) (L : Libm) (k : ℝ) (hL : Accurate f k L) (hk : k / 2 ^ f.prec ≤ 1 / 1000)
    (q : Quat Flt) (Q : ℍ[ℝ]) (hq : StandsQuat f q Q) (hn : |‖Q‖ - 1| ≤ 7 / 2 ^ f.prec) (hw : |Q.re| ≤ 1) (hi : 2 * (2 / 2 ^ f.prec) ^ 2 ≤ ‖Q.im‖ ^ 2)
    (ha : isNormalized f (quatAxisAngle f L q).1 = true) :
    ∃ q' Q', axisAngleQuat f L (quatAxisAngle f L q).1 .radians (quatAxisAngle f L q).2 = .ok q' ∧ StandsQuat f q' Q' ∧
      ‖Q' - Q‖ ≤ √((3 * k + 16) / 2 ^ f.prec) + (5 * k + 36) / 2 ^ 24 := by
  obtain ⟨hu0, hu, hn0, hn', hM⟩ := real_consts hf
  have hM1 : (100 : ℝ) ≤ f.maxVal := le_trans (by norm_num) hM
  have u24 : (1 / 2 ^ f.prec : ℝ) ≤ 1 / 2 ^ 24 := by rw [show (1 : ℝ) / 2 ^ 24 = 1 / 16777216 by norm_num]; exact hu
  have hN := im_norm Q
  rw [sq_abs] at hN
  rw [show (7 : ℝ) / 2 ^ f.prec = 7 * (1 / 2 ^ f.prec) by ring] at hn
  obtain ⟨n1, n2⟩ := abs_le.1 hn
  have hi1 : ‖Q.im‖ ≤ 1001 / 1000 := by
    refine le_of_sq_le_sq ?_ (by norm_num)
    nlinarith [sq_nonneg Q.re, norm_nonneg Q]
  have hi0 : 0 < ‖Q.im‖ := by
    by_contra hc
    have : ‖Q.im‖ = 0 := le_antisymm (not_lt.1 hc) (norm_nonneg _)
    rw [this] at hi
    have : (0 : ℝ) < 2 * (2 / 2 ^ f.prec) ^ 2 := by positivity
    linarith
  have hb : ‖Q.im‖ ^ 2 ≤ f.maxVal / 2 := by nlinarith
  obtain ⟨⟨V, sV, eV⟩, hang, _⟩ := (C156_axis_angle_partial f hf L k hL hk q Q hq hb).2 hi
  obtain ⟨t, st, et⟩ := hang hw
  have hD : ‖(‖Q.im‖⁻¹ • Q.im)‖ = 1 := by rw [norm_smul, norm_inv, norm_norm, inv_mul_cancel₀ hi0.ne']
  have eV' : ‖V - ‖Q.im‖⁻¹ • Q.im‖ ≤ 11 / 2 ^ 24 := eV.trans (by split_ifs <;> norm_num)
  have hV : ‖V‖ ≤ 2 := by
    have := norm_add_le (V - ‖Q.im‖⁻¹ • Q.im) (‖Q.im‖⁻¹ • Q.im)
    rw [sub_add_cancel, hD] at this
    have : (11 : ℝ) / 2 ^ 24 ≤ 1 := by norm_num
    linarith
  have hVb : ‖V‖ ^ 2 ≤ f.maxVal / 2 := by nlinarith [norm_nonneg V]
  have hacc := accepted_length hf sV hVb ha
  obtain ⟨q', Q', e, sQ, B0, B1, eQ⟩ := axisAngle_close hf hL hk sV hVb .radians st ha
  refine ⟨q', Q', e, sQ, ?_⟩
  rw [if_neg (by decide), show exactAngle .radians t = t from rfl, add_zero, ← mul_one_div] at eQ
  have hV0 : 0 < ‖V‖ := by rw [abs_le] at hacc; linarith
  have k0 : 0 ≤ k / 2 ^ f.prec := (abs_nonneg _).trans et
  rw [← mul_one_div k] at et k0 hk
  -- the cosine
  have hcos : |Real.cos (t / 2) - Q.re| ≤ k * (1 / 2 ^ f.prec) := by
    have := Real.abs_cos_sub_cos_le (t / 2) (Real.arccos Q.re)
    rw [Real.cos_arccos (abs_le.1 hw).1 (abs_le.1 hw).2] at this
    linarith
  have hsin : -(k * (1 / 2 ^ f.prec)) ≤ Real.sin (t / 2) := by
    have := Real.abs_sin_sub_sin_le (t / 2) (Real.arccos Q.re)
    have p := Real.sin_nonneg_of_nonneg_of_le_pi (Real.arccos_nonneg Q.re) (Real.arccos_le_pi Q.re)
    have := (abs_le.1 (this.trans et)).1
    linarith
  have cs := Real.sin_sq_add_cos_sq (t / 2)
  have hsq : |Real.sin (t / 2) ^ 2 - ‖Q.im‖ ^ 2| ≤ 15 * (1 / 2 ^ f.prec) + 21 / 10 * (k * (1 / 2 ^ f.prec)) := by
    have e1 : Real.sin (t / 2) ^ 2 - ‖Q.im‖ ^ 2 = (1 - ‖Q‖ ^ 2) + (Q.re - Real.cos (t / 2)) * (Q.re + Real.cos (t / 2)) := by
      linear_combination cs - hN
    have e2 : |1 - ‖Q‖ ^ 2| ≤ 15 * (1 / 2 ^ f.prec) := by rw [abs_le]; constructor <;> nlinarith
    have e3 : |(Q.re - Real.cos (t / 2)) * (Q.re + Real.cos (t / 2))| ≤ k * (1 / 2 ^ f.prec) * 2 := by
      rw [abs_mul, abs_sub_comm]
      refine mul_le_mul hcos ((abs_add_le _ _).trans ?_) (abs_nonneg _) k0
      have := Real.abs_cos_le_one (t / 2)
      linarith
    rw [e1]
    have := abs_add_le (1 - ‖Q‖ ^ 2) ((Q.re - Real.cos (t / 2)) * (Q.re + Real.cos (t / 2)))
    linarith
  have hroot := sineSquares_close (norm_nonneg Q.im) hsin k0 hsq
  have hroot' : |Real.sin (t / 2) - ‖Q.im‖| ≤ √((3 * k + 16) / 2 ^ f.prec) + k * (1 / 2 ^ f.prec) := by
    refine hroot.trans (add_le_add_left (Real.sqrt_le_sqrt ?_) _)
    rw [← mul_one_div (3 * k + 16)]
    have := mul_le_mul_of_nonneg_left hk k0
    rw [← sq] at this
    linarith
  -- the parts
  have hB : ‖‖V‖⁻¹ • V - ‖Q.im‖⁻¹ • Q.im‖ ≤ 61 / 10 * (1 / 2 ^ f.prec) + 11 / 2 ^ 24 := by
    have e1 : ‖‖V‖⁻¹ • V - V‖ ≤ 61 / 10 * (1 / 2 ^ f.prec) := by
      rw [show ‖V‖⁻¹ • V - V = (‖V‖⁻¹ - 1) • V by rw [sub_smul, one_smul], norm_smul, Real.norm_eq_abs]
      rw [show ‖V‖⁻¹ - 1 = -(‖V‖ - 1) * ‖V‖⁻¹ by field_simp; ring, abs_mul, abs_neg, abs_of_pos (by positivity : 0 < ‖V‖⁻¹), mul_assoc,
        inv_mul_cancel₀ hV0.ne', mul_one]
      exact hacc
    have := norm_add_le (‖V‖⁻¹ • V - V) (V - ‖Q.im‖⁻¹ • Q.im)
    rw [sub_add_sub_cancel] at this
    linarith
  have hQ : Q = Q.re • (1 : ℍ[ℝ]) + ‖Q.im‖ • (‖Q.im‖⁻¹ • Q.im) := by
    rw [smul_smul, mul_inv_cancel₀ hi0.ne', one_smul]
    ext <;> simp
  have hdiff : ‖axisQuat (‖V‖⁻¹ • V) t - Q‖ ≤ |Real.cos (t / 2) - Q.re| + |Real.sin (t / 2) - ‖Q.im‖| + ‖Q.im‖ * ‖‖V‖⁻¹ • V - ‖Q.im‖⁻¹ • Q.im‖ := by
    have e1 : axisQuat (‖V‖⁻¹ • V) t - Q = (Real.cos (t / 2) - Q.re) • (1 : ℍ[ℝ]) + (Real.sin (t / 2) - ‖Q.im‖) • (‖V‖⁻¹ • V) +
        ‖Q.im‖ • (‖V‖⁻¹ • V - ‖Q.im‖⁻¹ • Q.im) := by
      rw [axisQuat_eq B0]
      nth_rewrite 1 [hQ]
      generalize ‖V‖⁻¹ • V = B
      generalize ‖Q.im‖⁻¹ • Q.im = D
      module
    rw [e1]
    generalize ‖V‖⁻¹ • V = B at B1 ⊢
    refine (norm_add₃_le).trans ?_
    rw [norm_smul, norm_smul, norm_smul, B1, norm_one, Real.norm_eq_abs, Real.norm_eq_abs, norm_norm, mul_one, mul_one]
  have hlast : ‖Q.im‖ * ‖‖V‖⁻¹ • V - ‖Q.im‖⁻¹ • Q.im‖ ≤ 1001 / 1000 * (61 / 10 * (1 / 2 ^ f.prec) + 11 / 2 ^ 24) :=
    mul_le_mul hi1 hB (norm_nonneg _) (by norm_num)
  have tri := norm_add_le (Q' - axisQuat (‖V‖⁻¹ • V) t) (axisQuat (‖V‖⁻¹ • V) t - Q)
  rw [sub_add_sub_cancel] at tri
  have kk : k * (1 / 2 ^ f.prec) ≤ k * (1 / 2 ^ 24) := mul_le_mul_of_nonneg_left u24 (by
    by_contra hc
    have := mul_neg_of_neg_of_pos (not_le.1 hc) hu0
    linarith)
  rw [← mul_one_div (5 * k + 36)]
  rw [show (11 : ℝ) / 2 ^ 24 = 11 * (1 / 2 ^ 24) by ring] at hlast
  generalize √((3 * k + 16) / 2 ^ f.prec) = r at *
  generalize hU : (1 / 2 ^ f.prec : ℝ) = U at *
  generalize (1 / 2 ^ 24 : ℝ) = W at *
  linarith

/-- The rotation vector: zero below the threshold, otherwise close to the direction of the imaginary part times the angle, in the precision of
the format. -/
theorem C156_vector_partial (f : Fmt) (hf : f = .double ∨ f = .single) (L : Libm) (k : ℝ) (hL : Accurate f k L) (hk : k / 2 ^ f.prec ≤ 1 / 1000)
    (q : Quat Flt) (Q : ℍ[ℝ]) (hq : StandsQuat f q Q) (hn : |‖Q‖ - 1| ≤ 7 / 2 ^ f.prec) (hw : |Q.re| ≤ 1) :
    (4 * ‖Q.im‖ ^ 2 ≤ (2 / 2 ^ f.prec) ^ 2 → quatRotationVector f L q = ⟨.fin false 0, .fin false 0, .fin false 0⟩) ∧
    (2 * (2 / 2 ^ f.prec) ^ 2 ≤ ‖Q.im‖ ^ 2 →
      ∃ R, StandsVec f (quatRotationVector f L q) R ∧ ‖R - (2 * Real.arccos Q.re) • (‖Q.im‖⁻¹ • Q.im)‖ ≤ (4 * k + 68) / 2 ^ f.prec) := by
  obtain ⟨hu0, hu, hn0, hn', hM⟩ := real_consts hf
  have hM1 : (100 : ℝ) ≤ f.maxVal := le_trans (by norm_num) hM
  have hN := im_norm Q
  rw [sq_abs] at hN
  rw [show (7 : ℝ) / 2 ^ f.prec = 7 * (1 / 2 ^ f.prec) by ring] at hn
  obtain ⟨n1, n2⟩ := abs_le.1 hn
  have hi1 : ‖Q.im‖ ≤ 1001 / 1000 := by
    refine le_of_sq_le_sq ?_ (by norm_num)
    nlinarith [sq_nonneg Q.re, norm_nonneg Q]
  have hb : ‖Q.im‖ ^ 2 ≤ f.maxVal / 2 := by nlinarith [norm_nonneg Q.im]
  obtain ⟨h1, h2⟩ := normalize_real hf (stands_im hq) hb
  refine ⟨fun h => by rw [quatRotationVector_eq, h1 h]; rfl, fun h => ?_⟩
  obtain ⟨e, ⟨l, sl, el⟩, _⟩ := h2 h
  rw [quatRotationVector_eq, if_pos e]
  have hi0 : 2 / 2 ^ f.prec ≤ ‖Q.im‖ := by
    refine le_of_sq_le_sq ?_ (norm_nonneg _)
    nlinarith [sq_nonneg ((2 : ℝ) / 2 ^ f.prec)]
  have hi00 : 0 < ‖Q.im‖ := lt_of_lt_of_le (by positivity) hi0
  obtain ⟨t, st, et⟩ := hL.acos _ _ hq.1 hw
  have hk' : k * (1 / 2 ^ f.prec) ≤ 1 / 1000 := by rwa [mul_one_div]
  have ht : |2 * t| ≤ 64 / 10 := by
    have p0 := Real.arccos_nonneg Q.re
    have p1 := Real.arccos_le_pi Q.re
    have := Real.pi_lt_d2
    rw [abs_le] at et ⊢
    constructor <;> linarith
  have s2 := double_real hf st (by linarith)
  obtain ⟨r, sr, er⟩ := factor_close hf s2 sl ht el hi0
  have hθ : |2 * t - 2 * Real.arccos Q.re| ≤ 2 * (k * (1 / 2 ^ f.prec)) := by
    rw [← mul_sub, abs_mul, abs_of_pos (by norm_num : (0 : ℝ) < 2)]; linarith
  obtain ⟨_, i1, i2, i3⟩ := abs_le_norm Q.im
  obtain ⟨_, sx, sy, sz⟩ := stands_im hq
  obtain ⟨x, px, ex⟩ := part_close hf sr sx er i1 hi00 hi1 ht hθ
  obtain ⟨y, py, ey⟩ := part_close hf sr sy er i2 hi00 hi1 ht hθ
  obtain ⟨z, pz, ez⟩ := part_close hf sr sz er i3 hi00 hi1 ht hθ
  refine ⟨quatOf 0 x y z, ⟨rfl, px, py, pz⟩, ?_⟩
  rw [show (4 * k + 68) / 2 ^ f.prec = 2 * (2 * (k * (1 / 2 ^ f.prec)) + 34 * (1 / 2 ^ f.prec)) by ring]
  refine norm_le4 ?_ ?_ ?_ ?_
  · have : (0 : ℝ) ≤ 2 * (k * (1 / 2 ^ f.prec)) + 34 * (1 / 2 ^ f.prec) := (abs_nonneg _).trans ex
    simpa using this
  · simpa [div_eq_inv_mul] using ex
  · simpa [div_eq_inv_mul] using ey
  · simpa [div_eq_inv_mul] using ez

/-- The axis does not depend on the library. -/
theorem quatAxisAngle_axis (f : Fmt) (L L' : Libm) (q : Quat Flt) : (quatAxisAngle f L q).1 = (quatAxisAngle f L' q).1 := by
  rw [quatAxisAngle_eq, quatAxisAngle_eq]
  split <;> rfl

/-- Functions that can be computed, for the axis only. -/
def noLibm : Libm := ⟨fun _ => .fin false 0, fun _ => .fin false 0, fun _ => .fin false 0⟩

/-- The quaternion with four equal parts: the third of a turn about the diagonal. -/
def diagTurn : Quat Flt := ⟨.fin false (1 / 2), .fin false (1 / 2), .fin false (1 / 2), .fin false (1 / 2)⟩

theorem diagTurn_stands {f : Fmt} (hf : f = .double ∨ f = .single) : StandsQuat f diagTurn (quatOf (1 / 2) (1 / 2) (1 / 2) (1 / 2)) :=
  ⟨half_real hf, half_real hf, half_real hf, half_real hf⟩

theorem diagTurn_norm : ‖quatOf (1 / 2) (1 / 2) (1 / 2) (1 / 2)‖ = 1 ∧ ‖(quatOf (1 / 2) (1 / 2) (1 / 2) (1 / 2)).im‖ ^ 2 = 3 / 4 := by
  constructor
  · refine (pow_eq_one_iff_of_nonneg (norm_nonneg _) (by norm_num : 2 ≠ 0)).1 ?_
    rw [norm_sq4]; norm_num
  · rw [norm_sq4]; norm_num

/-- In `float`, the third of a turn about the diagonal is found and made again. -/
example : ∃ L, Accurate .single 8 L ∧
    (∃ V, StandsVec .single (quatAxisAngle .single L diagTurn).1 V) ∧
    (∃ t, StandsReal .single (quatAxisAngle .single L diagTurn).2 t ∧ |t / 2 - Real.pi / 3| ≤ 8 / 2 ^ 24) ∧
    (∃ q' Q', axisAngleQuat .single L (quatAxisAngle .single L diagTurn).1 .radians (quatAxisAngle .single L diagTurn).2 = .ok q' ∧
      StandsQuat .single q' Q' ∧ ‖Q' - quatOf (1 / 2) (1 / 2) (1 / 2) (1 / 2)‖ ≤ √(40 / 2 ^ 24) + 76 / 2 ^ 24) ∧
    ∃ R, StandsVec .single (quatRotationVector .single L diagTurn) R := by
  have hs : Fmt.single = .double ∨ Fmt.single = .single := .inr rfl
  obtain ⟨L, hL⟩ := accurate_exists hs
  obtain ⟨n1, n2⟩ := diagTurn_norm
  have hM := (real_consts hs).2.2.2.2
  have hk : (8 : ℝ) / 2 ^ Fmt.single.prec ≤ 1 / 1000 := by norm_num [Fmt.single]
  have hi : 2 * (2 / 2 ^ Fmt.single.prec) ^ 2 ≤ ‖(quatOf (1 / 2) (1 / 2) (1 / 2) (1 / 2)).im‖ ^ 2 := by rw [n2]; norm_num [Fmt.single]
  have hn : |‖quatOf (1 / 2) (1 / 2) (1 / 2) (1 / 2)‖ - 1| ≤ 7 / 2 ^ Fmt.single.prec := by rw [n1, sub_self, abs_zero]; positivity
  have hw : |(quatOf (1 / 2) (1 / 2) (1 / 2) (1 / 2)).re| ≤ 1 := by rw [quatOf_re, abs_of_pos] <;> norm_num
  obtain ⟨⟨V, sV, _⟩, ht, _⟩ := (C156_axis_angle_partial .single hs L 8 hL hk diagTurn _ (diagTurn_stands hs) (by rw [n2]; linarith [(by norm_num : (2 : ℝ) ≤ 10 ^ 30)])).2 hi
  obtain ⟨t, st, et⟩ := ht hw
  obtain ⟨q', Q', e, sQ, h⟩ := C156_again_partial .single hs L 8 hL hk diagTurn _ (diagTurn_stands hs) hn hw hi
    (by rw [quatAxisAngle_axis _ L noLibm]; decide +kernel)
  obtain ⟨R, sR, _⟩ := (C156_vector_partial .single hs L 8 hL hk diagTurn _ (diagTurn_stands hs) hn hw).2 hi
  refine ⟨L, hL, ⟨V, sV⟩, ⟨t, st, ?_⟩, ⟨q', Q', e, sQ, h.trans ?_⟩, R, sR⟩
  · rwa [quatOf_re, ← Real.cos_pi_div_three, Real.arccos_cos (by positivity) (by linarith [Real.pi_pos])] at et
  · rw [show Fmt.single.prec = 24 from rfl]; norm_num

/-- What one expects: the axis of a normalised quaternion is accepted when the quaternion is made again. -/
def AxisAccepted (f : Fmt) : Prop := ∀ L k, Accurate f k L → ∀ q Q, StandsQuat f q Q → quatIsNormalized f q = true →
  ∃ q', axisAngleQuat f L (quatAxisAngle f L q).1 .radians (quatAxisAngle f L q).2 = .ok q'

/-- For `double` it is refused: the axis has been rounded to `float`. -/
theorem C156_double_refuted : ¬ AxisAccepted .double ∧ quatIsNormalized .double diagTurn = true ∧
    ∀ L, axisAngleQuat .double L (quatAxisAngle .double L diagTurn).1 .radians (quatAxisAngle .double L diagTurn).2 = .throws .assertion := by
  have hd : Fmt.double = .double ∨ Fmt.double = .single := .inl rfl
  have hn : quatIsNormalized .double diagTurn = true := by decide +kernel
  have h : ∀ L, axisAngleQuat .double L (quatAxisAngle .double L diagTurn).1 .radians (quatAxisAngle .double L diagTurn).2 = .throws .assertion := by
    intro L
    have : isNormalized .double (quatAxisAngle .double L diagTurn).1 = false := by rw [quatAxisAngle_axis _ L noLibm]; decide +kernel
    simp [axisAngleQuat, this]
  refine ⟨fun ha => ?_, hn, h⟩
  obtain ⟨L, hL⟩ := accurate_exists hd
  obtain ⟨q', e⟩ := ha L 8 hL diagTurn _ (diagTurn_stands hd) hn
  rw [h L] at e
  cases e

/-- What one expects: the angle of a normalised quaternion is a number. -/
def AngleIsNumber (f : Fmt) : Prop := ∀ L k, Accurate f k L → ∀ q Q, StandsQuat f q Q → quatIsNormalized f q = true → IsNumber (quatAxisAngle f L q).2

/-- A quaternion whose real part is the next number after one. -/
def aboveOne : Quat Flt := ⟨.fin false ((2 ^ 52 + 1 : ℕ) / 2 ^ 52), .fin false ((1 : ℕ) / 2 ^ 26), .fin false 0, .fin false 0⟩

theorem C156_nan_refuted : ¬ AngleIsNumber .double ∧ quatIsNormalized .double aboveOne = true ∧
    ∀ L k, Accurate .double k L → (quatAxisAngle .double L aboveOne).2 = .nan false := by
  have hd : Fmt.double = .double ∨ Fmt.double = .single := .inl rfl
  have hn : quatIsNormalized .double aboveOne = true := by decide +kernel
  have z0 : StandsReal .double (.fin false 0) 0 := ⟨0, zero_stands _ hd false, by norm_num⟩
  have sw : StandsReal .double aboveOne.w ((2 ^ 52 + 1) / 2 ^ 52) :=
    ⟨_, stands_double false (n := 2 ^ 52 + 1) (e := 52) (by norm_num) (by norm_num), by norm_num⟩
  have sx : StandsReal .double aboveOne.x (1 / 2 ^ 26) :=
    ⟨_, stands_double false (n := 1) (e := 26) (by norm_num) (by norm_num), by norm_num⟩
  have h : ∀ L k, Accurate .double k L → (quatAxisAngle .double L aboveOne).2 = .nan false := by
    intro L k hL
    have e : (epsilon .double).lt (length .double ⟨aboveOne.x, aboveOne.y, aboveOne.z⟩) = true := by decide +kernel
    rw [quatAxisAngle_eq, if_pos e]
    change Fmt.double.mul (.fin false 2) (L.acos aboveOne.w) = _
    rw [hL.domain _ _ sw (by rw [abs_of_pos] <;> norm_num)]
    rfl
  refine ⟨fun ha => ?_, hn, h⟩
  obtain ⟨L, hL⟩ := accurate_exists hd
  have := ha L 8 hL aboveOne (quatOf ((2 ^ 52 + 1) / 2 ^ 52) (1 / 2 ^ 26) 0 0) ⟨sw, sx, z0, z0⟩ hn
  rw [h L 8 hL] at this
  obtain ⟨p, hp⟩ := this
  cases hp

/-- What one expects: the angle of a normalised quaternion next to the rotation by `θ` about `A` is right to one half. -/
def AngleRight (f : Fmt) : Prop := ∀ L, Accurate f 8 L → ∀ q Q P A θ, StandsQuat f q Q → quatIsNormalized f q = true → RotatesBy P A θ → 0 ≤ P.re → 0 < θ → θ < 1 →
  ‖Q - P‖ ≤ 1 / 2 ^ f.prec → 2 * (2 / 2 ^ f.prec) ^ 2 ≤ ‖Q.im‖ ^ 2 → ∃ t, StandsReal f (quatAxisAngle f L q).2 t ∧ |t - θ| ≤ θ / 2

/-- A small rotation in `float`. -/
def smallTurn : Quat Flt := ⟨.fin false 1, .fin false (1 / 2 ^ 13), .fin false 0, .fin false 0⟩

/-- The quaternion nearest to a rotation by `1 / 4096` gives an angle of less than one hundredth of that: the real part is one. -/
theorem C156_small_refuted : ¬ AngleRight .single ∧ quatIsNormalized .single smallTurn = true ∧
    ∀ L, Accurate .single 8 L → ∃ t, StandsReal .single (quatAxisAngle .single L smallTurn).2 t ∧ |t| ≤ 1 / 2 ^ 20 := by
  have hs : Fmt.single = .double ∨ Fmt.single = .single := .inr rfl
  have hn : quatIsNormalized .single smallTurn = true := by decide +kernel
  have z0 : StandsReal .single (.fin false 0) 0 := ⟨0, zero_stands _ hs false, by norm_num⟩
  have o1 : StandsReal .single (.fin false 1) 1 := ⟨1, one_stands hs, by norm_num⟩
  have sx : StandsReal .single (.fin false (1 / 2 ^ 13)) (1 / 2 ^ 13) := by
    refine ⟨1 / 2 ^ 13, ⟨⟨by norm_num, by decide +kernel, 1, -13, ?_, by decide, ?_⟩, rfl⟩, by norm_num⟩ <;> norm_num [Fmt.single]
  have hM := (real_consts hs).2.2.2.2
  have im2 : ‖(quatOf 1 (1 / 2 ^ 13) 0 0).im‖ ^ 2 = 1 / 2 ^ 26 := by rw [norm_sq4]; norm_num
  have hi : 2 * (2 / 2 ^ Fmt.single.prec) ^ 2 ≤ ‖(quatOf 1 (1 / 2 ^ 13) 0 0).im‖ ^ 2 := by rw [im2]; norm_num [Fmt.single]
  have h : ∀ L, Accurate .single 8 L → ∃ t, StandsReal .single (quatAxisAngle .single L smallTurn).2 t ∧ |t| ≤ 1 / 2 ^ 20 := by
    intro L hL
    obtain ⟨t, st, et⟩ := ((C156_axis_angle_partial .single hs L 8 hL (by norm_num [Fmt.single]) smallTurn (quatOf 1 (1 / 2 ^ 13) 0 0) ⟨o1, sx, z0, z0⟩
      (by rw [im2]; linarith [(by norm_num : (2 : ℝ) ≤ 10 ^ 30)])).2 hi).2.1 (by simp)
    refine ⟨t, st, ?_⟩
    rw [quatOf_re, Real.arccos_one, sub_zero, abs_div, abs_of_pos (by norm_num : (0 : ℝ) < 2), show Fmt.single.prec = 24 from rfl] at et
    rw [div_le_iff₀ (by norm_num)] at et
    exact et.trans (by norm_num)
  refine ⟨fun ha => ?_, hn, h⟩
  obtain ⟨L, hL⟩ := accurate_exists hs
  obtain ⟨t, st, et⟩ := h L hL
  have c1 := Real.one_sub_sq_div_two_le_cos (x := 1 / 4096 / 2)
  have c2 := Real.cos_le_one (1 / 4096 / 2)
  have s1 := Real.sin_lt (x := 1 / 4096 / 2) (by norm_num)
  have s2 := Real.sin_gt_sub_cube (x := 1 / 4096 / 2) (by norm_num)
  obtain ⟨t', st', et'⟩ := ha L hL smallTurn (quatOf 1 (1 / 2 ^ 13) 0 0) (axisQuat axisI (1 / 4096)) axisI (1 / 4096) ⟨o1, sx, z0, z0⟩ hn
    (axisQuat_rotates axisI_unit.1 axisI_unit.2 _) (by rw [axisQuat_I, quatOf_re]; linarith) (by norm_num) (by norm_num) (by
      rw [axisQuat_I, show (1 : ℝ) / 2 ^ Fmt.single.prec = 2 * (1 / 2 ^ 25) by norm_num [Fmt.single]]
      refine norm_le4 ?_ ?_ ?_ ?_
      · change |1 - Real.cos (1 / 4096 / 2)| ≤ _; rw [abs_le]; constructor <;> linarith
      · change |1 / 2 ^ 13 - Real.sin (1 / 4096 / 2)| ≤ _; rw [abs_le]; constructor <;> linarith
      · simp
      · simp) hi
  rw [stands_unique st' st] at et'
  rw [abs_le] at et et'
  linarith [et.2, et'.1, (by norm_num : (1 : ℝ) / 2 ^ 20 < 1 / 4096 / 2)]

end Flut
