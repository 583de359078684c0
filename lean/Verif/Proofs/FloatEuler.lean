import Verif.Spec.FloatEuler
import Verif.Proofs.FloatSpline
import Verif.Props.FloatAngle
import Verif.Props.FloatAxes
import Verif.Props.FloatNormalize
import Verif.Props.FloatRotation
import Mathlib.Analysis.SpecialFunctions.Trigonometric.Bounds

/-! # Lemmas about quaternions from angles in floating-point arithmetic -/

namespace Flut

open Spec FloatMath Quaternion

/-- One half is exact, except among the smallest numbers. -/
theorem halved {f : Fmt} (hf : f = .double ∨ f = .single) {x : Flt} {a : ℝ} (hx : StandsReal f x a) :
    ∃ h, StandsReal f (f.mul (.fin false (1 / 2)) x) h ∧ |h - a / 2| ≤ 2 ^ f.emin := by
  obtain ⟨a, sa, rfl⟩ := hx
  have hb := sa.abs_le
  have h1 : |1 / 2 * a| ≤ f.maxVal := by
    rw [abs_mul, abs_of_pos (by norm_num : (0 : ℚ) < 1 / 2)]
    linarith [abs_nonneg a]
  refine ⟨_, ⟨_, mul_stands hf (half_stands hf) sa h1, rfl⟩, ?_⟩
  have hn : (0 : ℚ) < 2 ^ f.emin := by positivity
  suffices h : |f.srnd (1 / 2 * a) - 1 / 2 * a| ≤ 2 ^ f.emin by
    have : ((|f.srnd (1 / 2 * a) - 1 / 2 * a| : ℚ) : ℝ) ≤ ((2 ^ f.emin : ℚ) : ℝ) := by exact_mod_cast h
    push_cast at this
    rw [show (a : ℝ) / 2 = 1 / 2 * a by ring]
    exact this
  obtain ⟨n, e, h2, h3, h4⟩ := sa.binary
  rcases h3.eq_or_lt with rfl | h3
  · refine (srnd_err _).trans ?_
    have k : |a| ≤ 2 ^ f.prec * 2 ^ f.emin := by
      rw [h4, abs_mul, abs_of_pos hn]
      exact mul_le_mul_of_nonneg_right (by exact_mod_cast h2.le) hn.le
    rw [abs_mul, abs_of_pos (by norm_num : (0 : ℚ) < 1 / 2)]
    have : 1 / 2 * |a| / 2 ^ f.prec ≤ 2 ^ f.emin / 2 := by
      rw [div_le_iff₀ (by positivity)]
      linarith
    linarith
  · rw [Fmt.srnd_self (prec_pos hf) ⟨n, e - 1, h2, by omega, ?_⟩, sub_self, abs_zero]
    · exact hn.le
    · rw [h4, zpow_sub_one₀ (by norm_num)]
      ring

/-- The error of the radians, in units of `1 / 2 ^ prec`. -/
noncomputable def unitErr (u : AngleUnit) (a : ℝ) : ℝ := if u = .degrees then 13 * |exactAngle u a| else 0

theorem unitErr_nonneg (u : AngleUnit) (a : ℝ) : 0 ≤ unitErr u a := by
  unfold unitErr
  split_ifs
  · positivity
  · exact le_rfl

theorem radValue_close {f : Fmt} (hf : f = .double ∨ f = .single) (u : AngleUnit) {x : Flt} {a : ℝ} (hx : StandsReal f x a) :
    ∃ t, StandsReal f (radValue f u x) t ∧ |t - exactAngle u a| ≤ unitErr u a * (1 / 2 ^ f.prec) + 2 ^ f.emin := by
  have hn : (0 : ℝ) < 2 ^ f.emin := by positivity
  cases u with
  | radians => exact ⟨a, hx, by simp [exactAngle, unitErr]; exact hn.le⟩
  | degrees =>
    obtain ⟨q, sq, rfl⟩ := hx
    obtain ⟨y, sy, ey⟩ := C101_deg_to_rad f hf x q sq
    refine ⟨y, ⟨y, sy, rfl⟩, ey.trans ?_⟩
    have e : |exactAngle .degrees (q : ℝ)| = |(q : ℝ)| * (Real.pi / 180) := by
      rw [exactAngle, abs_mul, abs_of_pos (by have := Real.pi_pos; positivity : (0 : ℝ) < Real.pi / 180)]
    rw [unitErr, if_pos rfl, e]
    have k : (0 : ℝ) ≤ |(q : ℝ)| * (Real.pi / 180) * (1 / 2 ^ f.prec) := by have := Real.pi_pos; positivity
    generalize |(q : ℝ)| * (Real.pi / 180) = T at *
    split_ifs
    · rw [show 12 * T / 2 ^ f.prec = 12 * (T * (1 / 2 ^ f.prec)) by ring, show 13 * T * (1 / 2 ^ f.prec) = 13 * (T * (1 / 2 ^ f.prec)) by ring]
      linarith
    · rw [show 3 * T / 2 ^ f.prec = 3 * (T * (1 / 2 ^ f.prec)) by ring, show 13 * T * (1 / 2 ^ f.prec) = 13 * (T * (1 / 2 ^ f.prec)) by ring]
      linarith

/-- Half of the angle in radians. -/
theorem halfAngle_close {f : Fmt} (hf : f = .double ∨ f = .single) (u : AngleUnit) {x : Flt} {a : ℝ} (hx : StandsReal f x a) :
    ∃ h, StandsReal f (f.mul (.fin false (1 / 2)) (radValue f u x)) h ∧
      |h - exactAngle u a / 2| ≤ (unitErr u a / 2 + 2 / 1000) * (1 / 2 ^ f.prec) := by
  obtain ⟨t, st, et⟩ := radValue_close hf u hx
  obtain ⟨h, sh, eh⟩ := halved hf st
  refine ⟨h, sh, ?_⟩
  have := emin_small hf
  rw [show h - exactAngle u a / 2 = (h - t / 2) + (t - exactAngle u a) / 2 by ring]
  refine (abs_add_le _ _).trans ?_
  rw [abs_div, abs_of_pos (by norm_num : (0 : ℝ) < 2), add_mul, div_mul_eq_mul_div]
  linarith [(real_consts hf).1]

/-- The sine and cosine of half of the angle. -/
theorem trig_close {f : Fmt} (hf : f = .double ∨ f = .single) {L : Libm} {k : ℝ} (hL : Accurate f k L) (u : AngleUnit) {x : Flt} {a : ℝ} (hx : StandsReal f x a) :
    ∃ c s, StandsReal f (L.cos (f.mul (.fin false (1 / 2)) (radValue f u x))) c ∧ StandsReal f (L.sin (f.mul (.fin false (1 / 2)) (radValue f u x))) s ∧
      |c - Real.cos (exactAngle u a / 2)| ≤ (k + unitErr u a / 2 + 2 / 1000) * (1 / 2 ^ f.prec) ∧
      |s - Real.sin (exactAngle u a / 2)| ≤ (k + unitErr u a / 2 + 2 / 1000) * (1 / 2 ^ f.prec) ∧
      |c| ≤ 1 + k * (1 / 2 ^ f.prec) ∧ |s| ≤ 1 + k * (1 / 2 ^ f.prec) ∧ ∃ h, |c - Real.cos h| ≤ k * (1 / 2 ^ f.prec) ∧ |s - Real.sin h| ≤ k * (1 / 2 ^ f.prec) := by
  obtain ⟨h, sh, eh⟩ := halfAngle_close hf u hx
  obtain ⟨c, sc, ec⟩ := hL.cos _ _ sh
  obtain ⟨s, ss, es⟩ := hL.sin _ _ sh
  have c1 := Real.abs_cos_sub_cos_le h (exactAngle u a / 2)
  have s1 := Real.abs_sin_sub_sin_le h (exactAngle u a / 2)
  refine ⟨c, s, sc, ss, ?_, ?_, ?_, ?_, h, ec, es⟩
  · have := abs_sub_le c (Real.cos h) (Real.cos (exactAngle u a / 2)); linarith
  · have := abs_sub_le s (Real.sin h) (Real.sin (exactAngle u a / 2)); linarith
  · have := Real.abs_cos_le_one h
    have := abs_add_le (c - Real.cos h) (Real.cos h)
    rw [sub_add_cancel] at this; linarith
  · have := Real.abs_sin_le_one h
    have := abs_add_le (s - Real.sin h) (Real.sin h)
    rw [sub_add_cancel] at this; linarith

/-! ### The rotation about an axis -/

/-- The quaternion of the rotation. -/
noncomputable def axisQuat (A : ℍ[ℝ]) (θ : ℝ) : ℍ[ℝ] :=
  quatOf (Real.cos (θ / 2)) (Real.sin (θ / 2) * A.imI) (Real.sin (θ / 2) * A.imJ) (Real.sin (θ / 2) * A.imK)

theorem axisQuat_eq {A : ℍ[ℝ]} (h0 : A.re = 0) (θ : ℝ) : axisQuat A θ = Real.cos (θ / 2) • (1 : ℍ[ℝ]) + Real.sin (θ / 2) • A := by
  ext <;> simp [axisQuat, h0]

theorem axisQuat_rotates {A : ℍ[ℝ]} (h0 : A.re = 0) (h1 : ‖A‖ = 1) (θ : ℝ) : RotatesBy (axisQuat A θ) A θ := by
  have n := norm_sq4 A
  rw [h0, h1] at n
  have cs := Real.sin_sq_add_cos_sq (θ / 2)
  have hn : ‖axisQuat A θ‖ ^ 2 = 1 := by
    rw [norm_sq4]
    simp only [axisQuat, quatOf_re, quatOf_imI, quatOf_imJ, quatOf_imK]
    linear_combination cs - Real.sin (θ / 2) ^ 2 * n
  have hu : ‖axisQuat A θ‖ = 1 := (pow_eq_one_iff_of_nonneg (norm_nonneg _) (by norm_num)).1 hn
  have hinv : (axisQuat A θ)⁻¹ = star (axisQuat A θ) := by
    rw [show (axisQuat A θ)⁻¹ = (normSq (axisQuat A θ))⁻¹ • star (axisQuat A θ) from rfl, normSq_eq_norm_mul_self, hu]
    simp
  have hstar : star (axisQuat A θ) = Real.cos (θ / 2) • (1 : ℍ[ℝ]) - Real.sin (θ / 2) • A := by
    ext <;> simp [axisQuat, h0]
  have haa : A * A = -1 := by
    ext
    · simp [h0]; nlinarith
    all_goals simp [h0]; try ring
  have e := axisQuat_eq h0 θ
  refine ⟨hu, ?_, fun V v0 hv => ?_⟩
  · have comm : A * star (axisQuat A θ) = star (axisQuat A θ) * A := by
      rw [hstar]; simp [mul_sub, sub_mul]
    rw [hinv, mul_assoc, comm, ← mul_assoc]
    have : axisQuat A θ * star (axisQuat A θ) = 1 := by
      rw [← hinv]; exact mul_inv_cancel₀ (norm_pos_iff.1 (by rw [hu]; norm_num))
    rw [this, one_mul]
  · have anti : V * A = -(A * V) := by
      simp [h0, v0] at hv
      ext
      · simp [h0, v0]; linarith
      all_goals simp [h0, v0]; try ring
    have hc : Real.cos θ = Real.cos (θ / 2) ^ 2 - Real.sin (θ / 2) ^ 2 := by
      have := Real.cos_two_mul' (θ / 2)
      rwa [show 2 * (θ / 2) = θ by ring] at this
    have hs : Real.sin θ = 2 * Real.sin (θ / 2) * Real.cos (θ / 2) := by
      have := Real.sin_two_mul (θ / 2)
      rwa [show 2 * (θ / 2) = θ by ring] at this
    rw [hinv, hstar, e, hc, hs]
    generalize Real.cos (θ / 2) = c
    generalize Real.sin (θ / 2) = s
    have av : A * (A * V) = -V := by rw [← mul_assoc, haa, neg_one_mul]
    have : (c • (1 : ℍ[ℝ]) + s • A) * V * (c • (1 : ℍ[ℝ]) - s • A) = (c • (1 : ℍ[ℝ]) + s • A) * (c • V + s • (A * V)) := by
      rw [mul_assoc]
      congr 1
      simp [mul_sub, anti]
    rw [this]
    simp only [add_mul, mul_add, smul_mul_assoc, mul_smul_comm, one_mul, av, smul_neg, sub_smul]
    module

theorem axisQuat_I (θ : ℝ) : axisQuat axisI θ = quatOf (Real.cos (θ / 2)) (Real.sin (θ / 2)) 0 0 := by
  ext <;> simp [axisQuat, axisI]
theorem axisQuat_J (θ : ℝ) : axisQuat axisJ θ = quatOf (Real.cos (θ / 2)) 0 (Real.sin (θ / 2)) 0 := by
  ext <;> simp [axisQuat, axisJ]
theorem axisQuat_K (θ : ℝ) : axisQuat axisK θ = quatOf (Real.cos (θ / 2)) 0 0 (Real.sin (θ / 2)) := by
  ext <;> simp [axisQuat, axisK]

theorem axisI_unit : axisI.re = 0 ∧ ‖axisI‖ = 1 :=
  ⟨rfl, (pow_eq_one_iff_of_nonneg (norm_nonneg _) (by norm_num : 2 ≠ 0)).1 (by rw [norm_sq4]; simp [axisI])⟩
theorem axisJ_unit : axisJ.re = 0 ∧ ‖axisJ‖ = 1 :=
  ⟨rfl, (pow_eq_one_iff_of_nonneg (norm_nonneg _) (by norm_num : 2 ≠ 0)).1 (by rw [norm_sq4]; simp [axisJ])⟩
theorem axisK_unit : axisK.re = 0 ∧ ‖axisK‖ = 1 :=
  ⟨rfl, (pow_eq_one_iff_of_nonneg (norm_nonneg _) (by norm_num : 2 ≠ 0)).1 (by rw [norm_sq4]; simp [axisK])⟩

/-! ### Products -/

theorem norm_two {c s h η : ℝ} {Q : ℍ[ℝ]} (hQ : ‖Q‖ ^ 2 = c ^ 2 + s ^ 2) (hc : |c - Real.cos h| ≤ η) (hs : |s - Real.sin h| ≤ η) : ‖Q‖ ≤ 1 + 2 * η := by
  have h0 : 0 ≤ η := (abs_nonneg _).trans hc
  refine le_of_sq_le_sq ?_ (by linarith)
  rw [hQ]
  have e := Real.sin_sq_add_cos_sq h
  have hc1 := Real.abs_cos_le_one h
  have hs1 := Real.abs_sin_le_one h
  have a1 : c ^ 2 ≤ Real.cos h ^ 2 + 2 * η + η ^ 2 := by
    have k1 : c ^ 2 = Real.cos h ^ 2 + 2 * ((c - Real.cos h) * Real.cos h) + (c - Real.cos h) ^ 2 := by ring
    have k2 : (c - Real.cos h) * Real.cos h ≤ η * 1 := (le_abs_self _).trans (by rw [abs_mul]; exact mul_le_mul hc hc1 (abs_nonneg _) h0)
    have k3 := sq_le_sq' (abs_le.1 hc).1 (abs_le.1 hc).2
    linarith
  have a2 : s ^ 2 ≤ Real.sin h ^ 2 + 2 * η + η ^ 2 := by
    have k1 : s ^ 2 = Real.sin h ^ 2 + 2 * ((s - Real.sin h) * Real.sin h) + (s - Real.sin h) ^ 2 := by ring
    have k2 : (s - Real.sin h) * Real.sin h ≤ η * 1 := (le_abs_self _).trans (by rw [abs_mul]; exact mul_le_mul hs hs1 (abs_nonneg _) h0)
    have k3 := sq_le_sq' (abs_le.1 hs).1 (abs_le.1 hs).2
    linarith
  nlinarith

theorem product_close {Q1 Q2 P1 P2 : ℍ[ℝ]} (h : ‖P1‖ = 1) : ‖Q1 * Q2 - P1 * P2‖ ≤ ‖Q1 - P1‖ * ‖Q2‖ + ‖Q2 - P2‖ := by
  rw [show Q1 * Q2 - P1 * P2 = (Q1 - P1) * Q2 + P1 * (Q2 - P2) by noncomm_ring]
  refine (norm_add_le _ _).trans ?_
  rw [norm_mul, norm_mul, h, one_mul]

/-- Three rotations, one after the other. -/
theorem triple_close {f : Fmt} (hf : f = .double ∨ f = .single) {q1 q2 q3 : Quat Flt} {Q1 Q2 Q3 P1 P2 P3 : ℍ[ℝ]} {e1 e2 e3 : ℝ} (s1 : StandsQuat f q1 Q1)
    (s2 : StandsQuat f q2 Q2) (s3 : StandsQuat f q3 Q3) (n1 : ‖Q1‖ ≤ 1002 / 1000) (n2 : ‖Q2‖ ≤ 1002 / 1000) (n3 : ‖Q3‖ ≤ 1002 / 1000)
    (u1 : ‖P1‖ = 1) (u2 : ‖P2‖ = 1) (h1 : ‖Q1 - P1‖ ≤ e1) (h2 : ‖Q2 - P2‖ ≤ e2) (h3 : ‖Q3 - P3‖ ≤ e3) :
    ∃ R, StandsQuat f (quatMul f q1 (quatMul f q2 q3)) R ∧ ‖R - P1 * P2 * P3‖ ≤ 101 / 100 * (e1 + e2 + e3) + 19 * (1 / 2 ^ f.prec) := by
  obtain ⟨hu0, hu, hn0, hn', hM⟩ := real_consts hf
  have hsm := emin_small hf
  have hM1 : (100 : ℝ) ≤ f.maxVal := le_trans (by norm_num) hM
  have m23 : ‖Q2‖ * ‖Q3‖ ≤ 1005 / 1000 := (mul_le_mul n2 n3 (norm_nonneg _) (by norm_num)).trans (by norm_num)
  obtain ⟨M, sM, eM⟩ := C118_product f hf q2 q3 Q2 Q3 s2 s3 (by linarith)
  have nM : ‖M‖ ≤ 1006 / 1000 := by
    have := norm_add_le (M - Q2 * Q3) (Q2 * Q3)
    rw [sub_add_cancel, norm_mul] at this
    have k : 9 / 2 ^ f.prec * (‖Q2‖ * ‖Q3‖) ≤ 9 * (1 / 2 ^ f.prec) * (1005 / 1000) := by
      rw [show (9 : ℝ) / 2 ^ f.prec = 9 * (1 / 2 ^ f.prec) by ring]
      exact mul_le_mul_of_nonneg_left m23 (by positivity)
    linarith
  have eM' : ‖M - Q2 * Q3‖ ≤ 92 / 10 * (1 / 2 ^ f.prec) := by
    have k : 9 / 2 ^ f.prec * (‖Q2‖ * ‖Q3‖) ≤ 9 * (1 / 2 ^ f.prec) * (1005 / 1000) := by
      rw [show (9 : ℝ) / 2 ^ f.prec = 9 * (1 / 2 ^ f.prec) by ring]
      exact mul_le_mul_of_nonneg_left m23 (by positivity)
    linarith
  have m1 : ‖Q1‖ * ‖M‖ ≤ 1009 / 1000 := (mul_le_mul n1 nM (norm_nonneg _) (by norm_num)).trans (by norm_num)
  obtain ⟨R, sR, eR⟩ := C118_product f hf q1 _ Q1 M s1 sM (by linarith)
  refine ⟨R, sR, ?_⟩
  have eR' : ‖R - Q1 * M‖ ≤ 92 / 10 * (1 / 2 ^ f.prec) := by
    have k : 9 / 2 ^ f.prec * (‖Q1‖ * ‖M‖) ≤ 9 * (1 / 2 ^ f.prec) * (1009 / 1000) := by
      rw [show (9 : ℝ) / 2 ^ f.prec = 9 * (1 / 2 ^ f.prec) by ring]
      exact mul_le_mul_of_nonneg_left m1 (by positivity)
    linarith
  have p23 := product_close (Q1 := Q2) (Q2 := Q3) (P1 := P2) (P2 := P3) u2
  have p1 := product_close (Q1 := Q1) (Q2 := M) (P1 := P1) (P2 := P2 * P3) u1
  have t1 := norm_add_le (M - Q2 * Q3) (Q2 * Q3 - P2 * P3)
  have t2 := norm_add_le (R - Q1 * M) (Q1 * M - P1 * (P2 * P3))
  rw [sub_add_sub_cancel] at t1 t2
  have z1 : ‖Q1 - P1‖ * ‖M‖ ≤ e1 * (1006 / 1000) := mul_le_mul h1 nM (norm_nonneg _) ((norm_nonneg _).trans h1)
  have z2 : ‖Q2 - P2‖ * ‖Q3‖ ≤ e2 * (1002 / 1000) := mul_le_mul h2 n3 (norm_nonneg _) ((norm_nonneg _).trans h2)
  have y1 := (norm_nonneg _).trans h1
  have y2 := (norm_nonneg _).trans h2
  have y3 := (norm_nonneg _).trans h3
  rw [mul_assoc]
  linarith

end Flut
