import Verif.Model.FloatDirections
import Verif.Proofs.FloatAxisAngle
import Verif.Props.FloatProducts
import Verif.Props.FloatEquals
import Mathlib.Analysis.Convex.SpecificFunctions.Deriv

/-! # Lemmas about the rotation from one direction to another in floating-point arithmetic -/

namespace Flut

open Spec FloatMath Quaternion

/-- The dot product of two vectors. -/
noncomputable def dotQ (V W : ℍ[ℝ]) : ℝ := V.imI * W.imI + V.imJ * W.imJ + V.imK * W.imK

theorem dotQ_le (V W : ℍ[ℝ]) : |dotQ V W| ≤ ‖V‖ * ‖W‖ := by
  refine abs_le_of_sq_le_sq ?_ (by positivity)
  rw [mul_pow, norm_sq4, norm_sq4, dotQ]
  nlinarith [sq_nonneg (V.imI * W.imJ - V.imJ * W.imI), sq_nonneg (V.imJ * W.imK - V.imK * W.imJ), sq_nonneg (V.imI * W.imK - V.imK * W.imI),
    mul_nonneg (sq_nonneg V.re) (sq_nonneg W.re), mul_nonneg (sq_nonneg V.re) (sq_nonneg W.imI), mul_nonneg (sq_nonneg V.re) (sq_nonneg W.imJ),
    mul_nonneg (sq_nonneg V.re) (sq_nonneg W.imK), mul_nonneg (sq_nonneg W.re) (sq_nonneg V.imI), mul_nonneg (sq_nonneg W.re) (sq_nonneg V.imJ),
    mul_nonneg (sq_nonneg W.re) (sq_nonneg V.imK)]

theorem im_le (V : ℍ[ℝ]) : ‖V.im‖ ≤ ‖V‖ := by
  have := im_norm V
  refine le_of_sq_le_sq ?_ (norm_nonneg _)
  nlinarith [sq_nonneg |V.re|]

theorem crossQ_close {V W S T : ℍ[ℝ]} : ‖crossQ V W - crossQ S T‖ ≤ ‖V - S‖ * ‖W‖ + ‖S‖ * ‖W - T‖ := by
  have e : crossQ V W - crossQ S T = crossQ (V - S) W + crossQ S (W - T) := by
    ext <;> simp [crossQ] <;> ring
  rw [e]
  refine (norm_add_le _ _).trans (add_le_add ?_ ?_)
  · exact (crossQ_norm _ _).trans (mul_le_mul_of_nonneg_right (im_le _) (norm_nonneg _))
  · exact (crossQ_norm _ _).trans (mul_le_mul_of_nonneg_right (im_le _) (norm_nonneg _))

theorem dotQ_close {V W S T : ℍ[ℝ]} : |dotQ V W - dotQ S T| ≤ ‖V - S‖ * ‖W‖ + ‖S‖ * ‖W - T‖ := by
  have e : dotQ V W - dotQ S T = dotQ (V - S) W + dotQ S (W - T) := by
    simp [dotQ]; ring
  rw [e]
  exact (abs_add_le _ _).trans (add_le_add (dotQ_le _ _) (dotQ_le _ _))

theorem dot_close {f : Fmt} (hf : f = .double ∨ f = .single) {v w : Vec3 Flt} {V W : ℍ[ℝ]} (h1 : StandsVec f v V) (h2 : StandsVec f w W)
    (n1 : ‖V‖ ≤ 1001 / 1000) (n2 : ‖W‖ ≤ 1001 / 1000) : ∃ d, StandsReal f (dotProduct f v w) d ∧ |d - dotQ V W| ≤ 41 / 10 * (1 / 2 ^ f.prec) := by
  obtain ⟨hu0, hu, hn0, hn', hM⟩ := real_consts hf
  have hsm := emin_small hf
  obtain ⟨z1, ⟨a, sa, ea⟩, ⟨b, sb, eb⟩, ⟨c, sc, ec⟩⟩ := h1
  obtain ⟨z2, ⟨a', sa', ea'⟩, ⟨b', sb', eb'⟩, ⟨c', sc', ec'⟩⟩ := h2
  have N1 := norm_sq4 V
  have N2 := norm_sq4 W
  rw [z1, ea, eb, ec] at N1
  rw [z2, ea', eb', ec'] at N2
  have P1 := norm_nonneg V
  have P2 := norm_nonneg W
  have sum : |(a : ℝ) * a'| + |(b : ℝ) * b'| + |(c : ℝ) * c'| ≤ 1003 / 1000 := by
    have k : ∀ p q : ℝ, |p * q| ≤ (p ^ 2 + q ^ 2) / 2 := fun p q => by
      rw [abs_le]; constructor <;> nlinarith [sq_nonneg (p + q), sq_nonneg (p - q)]
    have := k a a'
    have := k b b'
    have := k c c'
    have : ‖V‖ ^ 2 ≤ (1001 / 1000) ^ 2 := by gcongr
    have : ‖W‖ ^ 2 ≤ (1001 / 1000) ^ 2 := by gcongr
    nlinarith
  have hb : |a * a'| + |b * b'| + |c * c'| ≤ f.maxVal / 2 := by
    have : ((|a * a'| + |b * b'| + |c * c'| : ℚ) : ℝ) ≤ ((f.maxVal / 2 : ℚ) : ℝ) := by
      push_cast
      linarith [(by norm_num : (4 : ℝ) ≤ 10 ^ 30)]
    exact_mod_cast this
  obtain ⟨r, sr, er⟩ := C113_dot f hf v w a b c a' b' c' sa sb sc sa' sb' sc' hb
  refine ⟨r, ⟨r, sr, rfl⟩, ?_⟩
  have e : ((|r - (a * a' + b * b' + c * c')| : ℚ) : ℝ) ≤ ((4 / 2 ^ f.prec * (|a * a'| + |b * b'| + |c * c'|) + 3 * 2 ^ f.emin : ℚ) : ℝ) := by exact_mod_cast er
  push_cast at e
  rw [dotQ, ea, eb, ec, ea', eb', ec']
  refine e.trans ?_
  rw [show (4 : ℝ) / 2 ^ f.prec = 4 * (1 / 2 ^ f.prec) by ring]
  have := mul_le_mul_of_nonneg_left sum (by positivity : (0 : ℝ) ≤ 4 * (1 / 2 ^ f.prec))
  linarith

/-- The arc cosine of numbers that are not near one or minus one. -/
theorem arccos_close {x y μ : ℝ} (hμ : 0 < μ) (hx : |x| ≤ 1) (hy : |y| ≤ 1) (hx' : μ ^ 2 ≤ 1 - x ^ 2) (hy' : μ ^ 2 ≤ 1 - y ^ 2) :
    |Real.arccos x - Real.arccos y| ≤ 16 / 10 * (|x - y| / μ) := by
  have sx : μ ≤ Real.sin (Real.arccos x) := by rw [Real.sin_arccos]; exact Real.le_sqrt_of_sq_le hx'
  have sy : μ ≤ Real.sin (Real.arccos y) := by rw [Real.sin_arccos]; exact Real.le_sqrt_of_sq_le hy'
  have cx := Real.cos_arccos (abs_le.1 hx).1 (abs_le.1 hx).2
  have cy := Real.cos_arccos (abs_le.1 hy).1 (abs_le.1 hy).2
  have a0 := Real.arccos_nonneg x
  have a1 := Real.arccos_le_pi x
  have b0 := Real.arccos_nonneg y
  have b1 := Real.arccos_le_pi y
  generalize Real.arccos x = α at *
  generalize Real.arccos y = β at *
  have mid : μ ≤ Real.sin ((α + β) / 2) := by
    have conc := (strictConcaveOn_sin_Icc.concaveOn).2
    have := conc (show α ∈ Set.Icc 0 Real.pi from ⟨a0, a1⟩) (show β ∈ Set.Icc 0 Real.pi from ⟨b0, b1⟩)
      (by norm_num : (0 : ℝ) ≤ 1 / 2) (by norm_num : (0 : ℝ) ≤ 1 / 2) (by norm_num)
    simp only [smul_eq_mul] at this
    rw [show 1 / 2 * α + 1 / 2 * β = (α + β) / 2 by ring] at this
    linarith
  have diff := Real.cos_sub_cos α β
  rw [cx, cy] at diff
  have jordan : 2 / Real.pi * (|α - β| / 2) ≤ |Real.sin ((α - β) / 2)| := by
    have hb : |α - β| / 2 ≤ Real.pi / 2 := by
      have : |α - β| ≤ Real.pi := by rw [abs_le]; constructor <;> linarith
      linarith
    have := Real.mul_le_sin (x := |α - β| / 2) (by positivity) hb
    refine this.trans ?_
    rcases abs_cases (α - β) with ⟨h, _⟩ | ⟨h, _⟩ <;> rw [h]
    · exact le_abs_self _
    · rw [neg_div, Real.sin_neg]; exact neg_le_abs _
  have e : |x - y| = 2 * Real.sin ((α + β) / 2) * |Real.sin ((α - β) / 2)| := by
    rw [diff, abs_mul, abs_mul, abs_neg, abs_of_pos (by norm_num : (0 : ℝ) < 2), abs_of_pos (lt_of_lt_of_le hμ mid)]
  have hp := Real.pi_pos
  have hp2 := Real.pi_lt_d2
  have low : 2 * μ * (|α - β| / Real.pi) ≤ |x - y| := by
    rw [e]
    have : |α - β| / Real.pi = 2 / Real.pi * (|α - β| / 2) := by field_simp
    rw [this]
    exact mul_le_mul (by linarith) jordan (by positivity) (by linarith)
  rw [← mul_div_assoc, le_div_iff₀ hμ]
  have : |α - β| = Real.pi * (|α - β| / Real.pi) := by field_simp
  have z : 0 ≤ |α - β| / Real.pi := by positivity
  nlinarith [mul_nonneg hμ.le z]

/-- The direction of a vector, as the code computes it. -/
theorem direction_close {f : Fmt} (hf : f = .double ∨ f = .single) {v : Vec3 Flt} {V : ℍ[ℝ]} (hv : StandsVec f v V) (hb : ‖V‖ ^ 2 ≤ f.maxVal / 2)
    (hs : 2 * (2 / 2 ^ f.prec) ^ 2 ≤ ‖V‖ ^ 2) : ∃ S, StandsVec f (FloatMath.normalize f v) S ∧ ‖S - ‖V‖⁻¹ • V‖ ≤ 1002 / 100 * (1 / 2 ^ f.prec) := by
  obtain ⟨hu0, hu, hn0, hn', hM⟩ := real_consts hf
  obtain ⟨e, _, ⟨x, sx, ex⟩, ⟨y, sy, ey⟩, ⟨z, sz, ez⟩⟩ := (normalize_real hf hv hb).2 hs
  have en : FloatMath.normalize f v = normalizedMember f v := by simp only [FloatMath.normalize, e, if_true, normalizedMember]
  rw [en]
  refine ⟨quatOf 0 x y z, ⟨rfl, sx, sy, sz⟩, ?_⟩
  have : ‖quatOf 0 x y z - ‖V‖⁻¹ • V‖ ≤ 2 * (501 / 100 * (1 / 2 ^ f.prec)) := by
    refine norm_le4 ?_ ?_ ?_ ?_
    · simp [hv.1]
    · simpa [div_eq_inv_mul] using ex
    · simpa [div_eq_inv_mul] using ey
    · simpa [div_eq_inv_mul] using ez
  linarith

/-- The directions of two vectors that are close. -/
theorem directions_diff {A B : ℍ[ℝ]} (hA : 0 < ‖A‖) (hB : 0 < ‖B‖) : ‖‖A‖⁻¹ • A - ‖B‖⁻¹ • B‖ ≤ 2 * (‖A - B‖ / ‖B‖) := by
  have e : ‖A‖⁻¹ • A - ‖B‖⁻¹ • B = ‖B‖⁻¹ • ((‖B‖ - ‖A‖) • (‖A‖⁻¹ • A) + (A - B)) := by
    rw [smul_add, smul_smul, smul_smul, smul_sub, show ‖B‖⁻¹ * (‖B‖ - ‖A‖) * ‖A‖⁻¹ = ‖A‖⁻¹ - ‖B‖⁻¹ by field_simp, sub_smul]
    abel
  have n1 : ‖‖A‖⁻¹ • A‖ = 1 := by rw [norm_smul, norm_inv, norm_norm, inv_mul_cancel₀ hA.ne']
  rw [e, norm_smul, norm_inv, norm_norm, ← mul_div_assoc, div_eq_inv_mul]
  refine mul_le_mul_of_nonneg_left ?_ (by positivity)
  refine (norm_add_le _ _).trans ?_
  rw [norm_smul, n1, mul_one, Real.norm_eq_abs]
  have := abs_norm_sub_norm_le A B
  rw [abs_sub_comm] at this
  linarith

theorem pure_mul {S T : ℍ[ℝ]} (h1 : S.re = 0) (h2 : T.re = 0) : (S * T).im = crossQ S T ∧ (S * T).re = -dotQ S T := by
  constructor
  · ext <;> simp [crossQ, h1, h2]; ring
  · simp [dotQ, h1, h2]; ring

/-- The vector product and the inner product of two directions. -/
theorem lagrange {S T : ℍ[ℝ]} (h1 : S.re = 0) (h2 : T.re = 0) (n1 : ‖S‖ = 1) (n2 : ‖T‖ = 1) : ‖crossQ S T‖ ^ 2 + dotQ S T ^ 2 = 1 := by
  have N1 := norm_sq4 S
  have N2 := norm_sq4 T
  rw [h1, n1] at N1
  rw [h2, n2] at N2
  rw [norm_sq4]
  simp only [crossQ, dotQ, quatOf_re, quatOf_imI, quatOf_imJ, quatOf_imK]
  linear_combination (-1 : ℝ) * N2 - (T.imI ^ 2 + T.imJ ^ 2 + T.imK ^ 2) * N1

/-- The rotation about the vector product takes the first direction to the second one. -/
theorem axisQuat_takes {S T : ℍ[ℝ]} (h1 : S.re = 0) (h2 : T.re = 0) (n1 : ‖S‖ = 1) (n2 : ‖T‖ = 1) (h0 : 0 < ‖crossQ S T‖) :
    RotatesBy (axisQuat (‖crossQ S T‖⁻¹ • crossQ S T) (Real.arccos (dotQ S T))) (‖crossQ S T‖⁻¹ • crossQ S T) (Real.arccos (dotQ S T)) ∧
    axisQuat (‖crossQ S T‖⁻¹ • crossQ S T) (Real.arccos (dotQ S T)) * S * (axisQuat (‖crossQ S T‖⁻¹ • crossQ S T) (Real.arccos (dotQ S T)))⁻¹ = T := by
  have lag := lagrange h1 h2 n1 n2
  have r := axisQuat_rotates (A := ‖crossQ S T‖⁻¹ • crossQ S T) (by simp [crossQ]) (by rw [norm_smul, norm_inv, norm_norm, inv_mul_cancel₀ h0.ne'])
    (Real.arccos (dotQ S T))
  refine ⟨r, ?_⟩
  have hd : |dotQ S T| ≤ 1 := by
    have := dotQ_le S T
    rwa [n1, n2, one_mul] at this
  have key : crossQ S T * S = T - dotQ S T • S := by
    have N1 := norm_sq4 S
    rw [h1, n1] at N1
    ext <;> simp [crossQ, dotQ, h1, h2]
    · ring
    · linear_combination -T.imI * N1
    · linear_combination -T.imJ * N1
    · linear_combination -T.imK * N1
  have key' : (‖crossQ S T‖⁻¹ • crossQ S T) * S = ‖crossQ S T‖⁻¹ • (T - dotQ S T • S) := by rw [smul_mul_assoc, key]
  have hre : ((‖crossQ S T‖⁻¹ • crossQ S T) * S).re = 0 := by rw [key']; simp [h1, h2]
  rw [r.turn S h1 hre, key', Real.cos_arccos (abs_le.1 hd).1 (abs_le.1 hd).2, Real.sin_arccos,
    show 1 - dotQ S T ^ 2 = ‖crossQ S T‖ ^ 2 by linarith, Real.sqrt_sq h0.le, smul_smul, mul_inv_cancel₀ h0.ne', one_smul]
  abel

end Flut
