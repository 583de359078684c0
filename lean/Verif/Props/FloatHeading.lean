import Verif.Proofs.FloatHeading
import Verif.Props.FloatEuler

/-! # C158: pitch, yaw and roll of a quaternion in floating-point arithmetic -/

namespace Flut

open Spec FloatMath Quaternion

/-- The images of a vector under nearly the same quaternion. -/
theorem image_close {Q P V : ℍ[ℝ]} (hP : ‖P‖ = 1) (hV : ‖V‖ = 1) {δ : ℝ} (h : ‖Q - P‖ ≤ δ) (hδ : δ ≤ 1 / 1000) :
    ‖Q * V * star Q - P * V * P⁻¹‖ ≤ 2001 / 1000 * δ ∧ |‖Q‖ ^ 2 - 1| ≤ 2001 / 1000 * δ ∧ ‖Q‖ ≤ 1001 / 1000 ∧ ‖P * V * P⁻¹‖ = 1 := by
  have hinv : P⁻¹ = star P := by
    rw [inv_eq_of_mul_eq_one_right]
    rw [Quaternion.self_mul_star, normSq_eq_norm_mul_self, hP]
    simp
  have h0 : 0 ≤ δ := (norm_nonneg _).trans h
  have n1 : |‖Q‖ - 1| ≤ δ := by
    rw [← hP]
    exact (abs_norm_sub_norm_le Q P).trans h
  obtain ⟨n2, n3⟩ := abs_le.1 n1
  have nQ : ‖Q‖ ≤ 1001 / 1000 := by linarith
  refine ⟨?_, ?_, nQ, ?_⟩
  · rw [hinv, show Q * V * star Q - P * V * star P = (Q - P) * V * star Q + P * V * star (Q - P) by rw [star_sub]; noncomm_ring]
    refine (norm_add_le _ _).trans ?_
    rw [norm_mul, norm_mul, norm_mul, norm_mul, Quaternion.norm_star, Quaternion.norm_star, hP, hV]
    have := mul_le_mul h nQ (norm_nonneg _) h0
    linarith
  · rw [show ‖Q‖ ^ 2 - 1 = (‖Q‖ - 1) * (‖Q‖ + 1) by ring, abs_mul, abs_of_nonneg (by linarith [norm_nonneg Q] : 0 ≤ ‖Q‖ + 1)]
    have := mul_le_mul n1 (by linarith : ‖Q‖ + 1 ≤ 2001 / 1000) (by linarith [norm_nonneg Q]) h0
    linarith
  · rw [norm_mul, norm_mul, norm_inv, hP, hV]
    norm_num

/-- The angle of one of the images of the axes. -/
theorem heading_points {f : Fmt} (hf : f = .double ∨ f = .single) {g : Flt → Flt → Flt} {k : ℝ} (hg : AccurateAngle f k g)
    {fp fq fr fs ft fw : Flt} {p q r s t w X Y X' Y' ω N : ℝ} (hp : StandsReal f fp p) (hq : StandsReal f fq q)
    (hr : StandsReal f fr r) (hs : StandsReal f fs s) (ht : StandsReal f ft t) (hw : StandsReal f fw w)
    (n1 : p ^ 2 + q ^ 2 + r ^ 2 + w ^ 2 ≤ N ^ 2) (n2 : s ^ 2 + t ^ 2 ≤ N ^ 2) (hN : N ≤ 1001 / 1000) (hN0 : 0 ≤ N)
    (hN1 : |N ^ 2 - 1| ≤ 2001 / 1000 * (ω / 2 ^ f.prec)) (hR : radius X Y ≤ 1) (hd : radius (X' - X) (Y' - Y) ≤ 2001 / 1000 * (ω / 2 ^ f.prec))
    (hX : X' = 1 - (2 * s ^ 2 + 2 * t ^ 2) + (N ^ 2 - 1)) (hY : Y' = 2 * (p * q) + 2 * (r * w)) :
    ∃ a, StandsReal f (g (f.add (f.mul (f.mul (.fin false 2) fp) fq) (f.mul (f.mul (.fin false 2) fr) fw))
        (f.sub (.fin false 1) (f.add (f.mul (f.mul (.fin false 2) fs) fs) (f.mul (f.mul (.fin false 2) ft) ft)))) a ∧
      |a| ≤ Real.pi + k / 2 ^ f.prec ∧ PointsTo a X Y ((9 * ω + 15 + k) / 2 ^ f.prec) := by
  have hN2 : N ^ 2 ≤ 1003 / 1000 := by
    have := pow_le_pow_left₀ hN0 hN 2
    linarith
  obtain ⟨hu0, -⟩ := real_consts hf
  have b1 : 2 * |p * q| + 2 * |r * w| ≤ 101 / 100 := by
    rw [abs_mul, abs_mul]
    nlinarith [sq_nonneg (|p| - |q|), sq_nonneg (|r| - |w|), sq_abs p, sq_abs q, sq_abs r, sq_abs w]
  have bp : |p| ≤ 2 := abs_le_of_sq_le_sq (by nlinarith [sq_nonneg q, sq_nonneg r, sq_nonneg w]) (by norm_num)
  have br : |r| ≤ 2 := abs_le_of_sq_le_sq (by nlinarith [sq_nonneg q, sq_nonneg p, sq_nonneg w]) (by norm_num)
  obtain ⟨⟨y, sy, ey⟩, ⟨x, sx, ex⟩⟩ := heading_close hf hp hq hr hs ht hw b1 (by linarith) bp br
  obtain ⟨a, θ, sa, hθ, hθ1, ha⟩ := hg _ _ y x sy sx
  refine ⟨a, sa, ?_, ?_⟩
  · have := abs_sub_abs_le_abs_sub a θ
    rw [← mul_one_div k]
    linarith
  have d1 : radius (x - X) (y - Y) ≤ 4002 / 1000 * (ω / 2 ^ f.prec) + 73 / 10 * (1 / 2 ^ f.prec) := by
    have t1 := radius_add (x - (1 - (2 * s ^ 2 + 2 * t ^ 2))) (y - (2 * (p * q) + 2 * (r * w))) (X' - X) (Y' - Y)
    have t3 := radius_le_abs (x - (1 - (2 * s ^ 2 + 2 * t ^ 2))) (y - (2 * (p * q) + 2 * (r * w)))
    have t4 := radius_add (x - (1 - (2 * s ^ 2 + 2 * t ^ 2)) + (X' - X)) (y - (2 * (p * q) + 2 * (r * w)) + (Y' - Y)) (-(N ^ 2 - 1)) 0
    have t5 := radius_le_abs (-(N ^ 2 - 1)) 0
    rw [abs_neg, abs_zero] at t5
    rw [show x - (1 - (2 * s ^ 2 + 2 * t ^ 2)) + (X' - X) + -(N ^ 2 - 1) = x - X by rw [hX]; ring,
      show y - (2 * (p * q) + 2 * (r * w)) + (Y' - Y) + 0 = y - Y by rw [hY]; ring] at t4
    linarith
  have main := pointsTo_of hθ d1 ha hR
  have ω0 : 0 ≤ ω / 2 ^ f.prec := by
    have := (abs_nonneg _).trans hN1
    linarith
  have k0 : 0 ≤ k * (1 / 2 ^ f.prec) := (abs_nonneg _).trans ha
  refine le_trans main (pow_le_pow_left₀ (by linarith) ?_ 2)
  rw [← mul_one_div (9 * ω + 15 + k)]
  rw [← mul_one_div ω] at *
  linarith

theorem part_radius {V : ℍ[ℝ]} {a b : ℝ} (h : a ^ 2 + b ^ 2 ≤ V.re ^ 2 + V.imI ^ 2 + V.imJ ^ 2 + V.imK ^ 2) : radius a b ≤ ‖V‖ := by
  refine le_of_sq_le_sq ?_ (norm_nonneg _)
  rw [radius_sq, norm_sq4]
  exact h

/-- Pitch, yaw and roll: for every quaternion that is nearly a unit quaternion, the pitch is near the angle in the plane of the second and the
third axis at which the rotation puts the second axis, the yaw is near the angle in the plane of the third and the first axis at which it puts
the third axis, and the roll is near the angle in the plane of the first and the second axis at which it puts the first one. -/
theorem C158_directions (f : Fmt) (hf : f = .double ∨ f = .single) (g : Flt → Flt → Flt) (k : ℝ) (hg : AccurateAngle f k g) (q : Quat Flt) (Q P : ℍ[ℝ])
    (hQ : StandsQuat f q Q) (hP : ‖P‖ = 1) (ω : ℝ) (h : ‖Q - P‖ ≤ ω / 2 ^ f.prec) (hω : ω / 2 ^ f.prec ≤ 1 / 1000) :
    ∃ pitch yaw roll, StandsVec f (quatEuler f g q) (quatOf 0 pitch yaw roll) ∧ (∀ a ∈ [pitch, yaw, roll], |a| ≤ Real.pi + k / 2 ^ f.prec) ∧
      PointsTo pitch (P * axisJ * P⁻¹).imJ (P * axisJ * P⁻¹).imK ((9 * ω + 15 + k) / 2 ^ f.prec) ∧
      PointsTo yaw (P * axisK * P⁻¹).imK (P * axisK * P⁻¹).imI ((9 * ω + 15 + k) / 2 ^ f.prec) ∧
      PointsTo roll (P * axisI * P⁻¹).imI (P * axisI * P⁻¹).imJ ((9 * ω + 15 + k) / 2 ^ f.prec) := by
  obtain ⟨sw, sx, sy, sz⟩ := hQ
  have nQ := norm_sq4 Q
  obtain ⟨dJ, e1, e2, nJ⟩ := image_close hP axisJ_unit.2 h hω
  obtain ⟨dK, -, -, nK⟩ := image_close hP axisK_unit.2 h hω
  obtain ⟨dI, -, -, nI⟩ := image_close hP axisI_unit.2 h hω
  have part : ∀ {V : ℍ[ℝ]} {a b : ℝ}, (a = V.imJ ∧ b = V.imK ∨ a = V.imK ∧ b = V.imI ∨ a = V.imI ∧ b = V.imJ) → radius a b ≤ ‖V‖ := by
    intro V a b hab
    apply part_radius
    have := sq_nonneg V.re
    have := sq_nonneg V.imI
    have := sq_nonneg V.imJ
    have := sq_nonneg V.imK
    rcases hab with ⟨rfl, rfl⟩ | ⟨rfl, rfl⟩ | ⟨rfl, rfl⟩ <;> linarith
  obtain ⟨p, sp, bp, hp⟩ := heading_points hf hg sz sy sx sx sz sw (by linarith) (by nlinarith [sq_nonneg Q.re, sq_nonneg Q.imJ]) e2 (norm_nonneg Q) e1
    ((part (.inl ⟨rfl, rfl⟩)).trans nJ.le)
    (X' := (Q * axisJ * star Q).imJ) (Y' := (Q * axisJ * star Q).imK) ((part (V := Q * axisJ * star Q - P * axisJ * P⁻¹) (.inl ⟨by simp, by simp⟩)).trans dJ)
    (by rw [nQ, show axisJ = quatOf 0 0 1 0 from rfl]; simp; ring) (by rw [show axisJ = quatOf 0 0 1 0 from rfl]; simp; ring)
  obtain ⟨y, sy', by', hy⟩ := heading_points hf hg sz sx sy sx sy sw (by linarith) (by nlinarith [sq_nonneg Q.re, sq_nonneg Q.imK]) e2 (norm_nonneg Q) e1
    ((part (.inr (.inl ⟨rfl, rfl⟩))).trans nK.le)
    (X' := (Q * axisK * star Q).imK) (Y' := (Q * axisK * star Q).imI) ((part (V := Q * axisK * star Q - P * axisK * P⁻¹) (.inr (.inl ⟨by simp, by simp⟩))).trans dK)
    (by rw [nQ, show axisK = quatOf 0 0 0 1 from rfl]; simp; ring) (by rw [show axisK = quatOf 0 0 0 1 from rfl]; simp; ring)
  obtain ⟨r, sr, br, hr⟩ := heading_points hf hg sy sx sz sy sz sw (by linarith) (by nlinarith [sq_nonneg Q.re, sq_nonneg Q.imI]) e2 (norm_nonneg Q) e1
    ((part (.inr (.inr ⟨rfl, rfl⟩))).trans nI.le)
    (X' := (Q * axisI * star Q).imI) (Y' := (Q * axisI * star Q).imJ) ((part (V := Q * axisI * star Q - P * axisI * P⁻¹) (.inr (.inr ⟨by simp, by simp⟩))).trans dI)
    (by rw [nQ, show axisI = quatOf 0 1 0 0 from rfl]; simp; ring) (by rw [show axisI = quatOf 0 1 0 0 from rfl]; simp; ring)
  refine ⟨p, y, r, ⟨rfl, ?_, ?_, ?_⟩, ?_, hp, hy, hr⟩
  · exact sp
  · exact sy'
  · exact sr
  · simp only [List.mem_cons, List.not_mem_nil, or_false]
    rintro a (rfl | rfl | rfl) <;> assumption

/-- There are functions as accurate as required. -/
theorem accurateAngle_exists {f : Fmt} (hf : f = .double ∨ f = .single) : ∃ g, AccurateAngle f 8 g := by
  have key : ∀ y x, ∃ z, ∀ b a, StandsReal f y b → StandsReal f x a →
      ∃ t θ, StandsReal f z t ∧ AngleOf a b θ ∧ |θ| ≤ Real.pi ∧ |t - θ| ≤ 8 * (1 / 2 ^ f.prec) := by
    intro y x
    by_cases h : ∃ b a, StandsReal f y b ∧ StandsReal f x a
    · obtain ⟨b, a, hb, ha⟩ := h
      obtain ⟨θ, h1, h2⟩ := angleOf_exists a b
      obtain ⟨z, t, sz, e⟩ := near_value hf (h2.trans Real.pi_le_four)
      exact ⟨z, fun b' a' hb' ha' => ⟨t, θ, sz, by rw [← stands_unique hb hb', ← stands_unique ha ha']; exact h1, h2, e⟩⟩
    · exact ⟨.nan false, fun b a hb ha => (h ⟨b, a, hb, ha⟩).elim⟩
  choose g hg using key
  exact ⟨g, fun y x b a hb ha => hg y x b a hb ha⟩

/-- A quarter of a turn about the first axis puts the second axis where the third one was. -/
example : ∃ g, AccurateAngle .double 8 g ∧ ∃ P : ℍ[ℝ], ‖P‖ = 1 ∧ (P * axisJ * P⁻¹).imJ = 0 ∧ (P * axisJ * P⁻¹).imK = 1 ∧
    ‖quatOf (6369051672525773 / 2 ^ 53) (6369051672525773 / 2 ^ 53) 0 0 - P‖ ≤ 2 / 2 ^ 53 := by
  obtain ⟨g, hg⟩ := accurateAngle_exists (.inl rfl : Fmt.double = .double ∨ _)
  have r := axisQuat_rotates axisI_unit.1 axisI_unit.2 (Real.pi / 2)
  have hP := r.turn axisJ rfl (by rw [show axisI = quatOf 0 1 0 0 from rfl, show axisJ = quatOf 0 0 1 0 from rfl]; simp)
  rw [Real.cos_pi_div_two, Real.sin_pi_div_two, zero_smul, zero_add, one_smul] at hP
  refine ⟨g, hg, _, r.unit, ?_, ?_, ?_⟩
  · rw [hP, show axisI = quatOf 0 1 0 0 from rfl, show axisJ = quatOf 0 0 1 0 from rfl]; simp
  · rw [hP, show axisI = quatOf 0 1 0 0 from rfl, show axisJ = quatOf 0 0 1 0 from rfl]; simp
  · rw [axisQuat_I, show Real.pi / 2 / 2 = Real.pi / 4 by ring, Real.cos_pi_div_four, Real.sin_pi_div_four]
    have h2 : |6369051672525773 / 2 ^ 53 - Real.sqrt 2 / 2| ≤ 1 / 2 ^ 53 := by
      have l : 2 * (6369051672525772 / 2 ^ 53) ≤ Real.sqrt 2 := Real.le_sqrt_of_sq_le (by norm_num)
      have u : Real.sqrt 2 ≤ 2 * (6369051672525774 / 2 ^ 53) := Real.sqrt_le_iff.2 ⟨by norm_num, by norm_num⟩
      rw [abs_le]
      constructor <;> linarith
    have n : ∀ E : ℝ, 0 ≤ E → |6369051672525773 / 2 ^ 53 - Real.sqrt 2 / 2| ≤ E →
        ‖quatOf (6369051672525773 / 2 ^ 53) (6369051672525773 / 2 ^ 53) 0 0 - quatOf (Real.sqrt 2 / 2) (Real.sqrt 2 / 2) 0 0‖ ≤ 2 * E := by
      intro E h0 hE
      refine norm_le4 ?_ ?_ ?_ ?_ <;> simpa using (by first | exact hE | exact h0)
    exact (n _ (by positivity) h2).trans (by norm_num)

theorem bound_nonneg {f : Fmt} (hf : f = .double ∨ f = .single) {g : Flt → Flt → Flt} {k ω : ℝ} (hg : AccurateAngle f k g) (h : 0 ≤ ω / 2 ^ f.prec) :
    0 ≤ (9 * ω + 15 + k) / 2 ^ f.prec := by
  obtain ⟨hu0, -⟩ := real_consts hf
  have o1 : StandsReal f (.fin false 1) 1 := ⟨1, one_stands hf, by norm_num⟩
  obtain ⟨t, θ, _, _, _, hk⟩ := hg _ _ 1 1 o1 o1
  have k0 : 0 ≤ k * (1 / 2 ^ f.prec) := (abs_nonneg _).trans hk
  rw [← mul_one_div ω] at h
  rw [← mul_one_div (9 * ω + 15 + k)]
  linarith

/-- The angles themselves: where the image of the axis is at a distance of at least `ρ` from the third axis, the angle read is within
`π / 2 * (9 ω + 15 + k) / 2 ^ prec / ρ` of an angle of that image. -/
theorem C158_angles (f : Fmt) (hf : f = .double ∨ f = .single) (g : Flt → Flt → Flt) (k : ℝ) (hg : AccurateAngle f k g) (q : Quat Flt) (Q P : ℍ[ℝ])
    (hQ : StandsQuat f q Q) (hP : ‖P‖ = 1) (ω : ℝ) (h : ‖Q - P‖ ≤ ω / 2 ^ f.prec) (hω : ω / 2 ^ f.prec ≤ 1 / 1000) (ρ : ℝ) (hρ : 0 < ρ) :
    ∃ pitch yaw roll, StandsVec f (quatEuler f g q) (quatOf 0 pitch yaw roll) ∧
      (ρ ≤ radius (P * axisJ * P⁻¹).imJ (P * axisJ * P⁻¹).imK → ∃ θ, AngleOf (P * axisJ * P⁻¹).imJ (P * axisJ * P⁻¹).imK θ ∧
        |pitch - θ| ≤ Real.pi / 2 * ((9 * ω + 15 + k) / 2 ^ f.prec / ρ)) ∧
      (ρ ≤ radius (P * axisK * P⁻¹).imK (P * axisK * P⁻¹).imI → ∃ θ, AngleOf (P * axisK * P⁻¹).imK (P * axisK * P⁻¹).imI θ ∧
        |yaw - θ| ≤ Real.pi / 2 * ((9 * ω + 15 + k) / 2 ^ f.prec / ρ)) ∧
      (ρ ≤ radius (P * axisI * P⁻¹).imI (P * axisI * P⁻¹).imJ → ∃ θ, AngleOf (P * axisI * P⁻¹).imI (P * axisI * P⁻¹).imJ θ ∧
        |roll - θ| ≤ Real.pi / 2 * ((9 * ω + 15 + k) / 2 ^ f.prec / ρ)) := by
  obtain ⟨p, y, r, s, hb, h1, h2, h3⟩ := C158_directions f hf g k hg q Q P hQ hP ω h hω
  have e0 := bound_nonneg hf hg ((norm_nonneg _).trans h)
  have step : ∀ {t a b : ℝ}, PointsTo t a b ((9 * ω + 15 + k) / 2 ^ f.prec) → ρ ≤ radius a b →
      ∃ θ, AngleOf a b θ ∧ |t - θ| ≤ Real.pi / 2 * ((9 * ω + 15 + k) / 2 ^ f.prec / ρ) := by
    intro t a b hp hr
    obtain ⟨θ, hθ, hd⟩ := pointsTo_angle hp e0 (hρ.trans_le hr)
    refine ⟨θ, hθ, hd.trans ?_⟩
    have := Real.pi_pos
    gcongr
  exact ⟨p, y, r, s, step h1, step h2, step h3⟩

/-- Any rotation will do for `P`, such as the one by nothing. -/
example : ‖(1 : ℍ[ℝ])‖ = 1 ∧ 1 ≤ radius ((1 : ℍ[ℝ]) * axisJ * 1⁻¹).imJ ((1 : ℍ[ℝ]) * axisJ * 1⁻¹).imK := by
  refine ⟨by simp, ?_⟩
  rw [show axisJ = quatOf 0 0 1 0 from rfl]
  simp [radius]

/-! ## Rotations about one of the axes -/

theorem single_rotation {P : ℍ[ℝ]} (h1 : P * axisI = axisI * P) (h2 : P * axisJ = axisJ * P) : P = quatOf P.re 0 0 0 := by
  rw [show axisI = quatOf 0 1 0 0 from rfl] at h1
  rw [show axisJ = quatOf 0 0 1 0 from rfl] at h2
  have a := congrArg QuaternionAlgebra.imJ h1
  have b := congrArg QuaternionAlgebra.imK h1
  have c := congrArg QuaternionAlgebra.imK h2
  simp at a b c
  ext <;> simp <;> linarith

theorem commutes_of {P V : ℍ[ℝ]} (hP : ‖P‖ = 1) (h : P * V * P⁻¹ = V) : P * V = V * P := by
  have h0 : P ≠ 0 := by rintro rfl; simp at hP
  have := congrArg (· * P) h
  simpa [mul_assoc, inv_mul_cancel₀ h0] using this

/-- The rotation by nothing. -/
theorem no_rotation {P : ℍ[ℝ]} (h : RotatesBy P axisI 0 ∨ RotatesBy P axisJ 0 ∨ RotatesBy P axisK 0) : ∃ c : ℝ, c ≠ 0 ∧ P = quatOf c 0 0 0 := by
  have iJ : (axisI * axisJ).re = 0 ∧ (axisJ * axisI).re = 0 ∧ (axisK * axisI).re = 0 ∧ (axisK * axisJ).re = 0 := by
    rw [show axisI = quatOf 0 1 0 0 from rfl, show axisJ = quatOf 0 0 1 0 from rfl, show axisK = quatOf 0 0 0 1 from rfl]
    simp
  have turn : ∀ {A V : ℍ[ℝ]}, RotatesBy P A 0 → V.re = 0 → (A * V).re = 0 → P * V = V * P := fun r hV hA =>
    commutes_of r.unit (by rw [r.turn _ hV hA]; simp)
  have fin : ‖P‖ = 1 → P * axisI = axisI * P → P * axisJ = axisJ * P → ∃ c : ℝ, c ≠ 0 ∧ P = quatOf c 0 0 0 := by
    intro hu h1 h2
    have e := single_rotation h1 h2
    refine ⟨P.re, ?_, e⟩
    intro h0
    rw [e, h0] at hu
    have := norm_sq4 (quatOf 0 0 0 0)
    rw [hu] at this
    simp at this
  rcases h with r | r | r
  · exact fin r.unit (commutes_of r.unit r.axis) (turn r rfl iJ.1)
  · exact fin r.unit (turn r rfl iJ.2.1) (commutes_of r.unit r.axis)
  · exact fin r.unit (turn r rfl iJ.2.2.1) (turn r rfl iJ.2.2.2)

theorem scaled_image {c : ℝ} (hc : c ≠ 0) (X V : ℍ[ℝ]) : (c • X) * V * (c • X)⁻¹ = X * V * X⁻¹ := by
  have : (c • X)⁻¹ = c⁻¹ • X⁻¹ := by
    by_cases h : X = 0
    · simp [h]
    · refine inv_eq_of_mul_eq_one_right ?_
      rw [smul_mul_smul_comm, mul_inv_cancel₀ hc, mul_inv_cancel₀ h, one_smul]
  rw [this, smul_mul_assoc, smul_mul_smul_comm, mul_inv_cancel₀ hc, one_smul]

/-- Two of the three rotations are by nothing. -/
theorem turns_single {X Y Z : ℍ[ℝ]} (eo : EulerOrder) {c d : ℝ} (hc : c ≠ 0) (hd : d ≠ 0) :
    (Y = quatOf c 0 0 0 → Z = quatOf d 0 0 0 → ∃ e : ℝ, e ≠ 0 ∧ turnsInOrder X Y Z eo = e • X) ∧
    (X = quatOf c 0 0 0 → Z = quatOf d 0 0 0 → ∃ e : ℝ, e ≠ 0 ∧ turnsInOrder X Y Z eo = e • Y) ∧
    (X = quatOf c 0 0 0 → Y = quatOf d 0 0 0 → ∃ e : ℝ, e ≠ 0 ∧ turnsInOrder X Y Z eo = e • Z) := by
  refine ⟨?_, ?_, ?_⟩ <;> rintro rfl rfl <;> refine ⟨c * d, mul_ne_zero hc hd, ?_⟩ <;> cases eo <;> ext <;> simp [turnsInOrder] <;>
    (try left) <;> ring

/-- The images of the axes when the rotation is about one of them. -/
theorem axis_images {P : ℍ[ℝ]} {θ : ℝ} :
    (RotatesBy P axisI θ → P * axisI * P⁻¹ = axisI ∧ P * axisJ * P⁻¹ = quatOf 0 0 (Real.cos θ) (Real.sin θ) ∧
      P * axisK * P⁻¹ = quatOf 0 0 (-Real.sin θ) (Real.cos θ)) ∧
    (RotatesBy P axisJ θ → P * axisI * P⁻¹ = quatOf 0 (Real.cos θ) 0 (-Real.sin θ) ∧ P * axisJ * P⁻¹ = axisJ ∧
      P * axisK * P⁻¹ = quatOf 0 (Real.sin θ) 0 (Real.cos θ)) ∧
    (RotatesBy P axisK θ → P * axisI * P⁻¹ = quatOf 0 (Real.cos θ) (Real.sin θ) 0 ∧ P * axisJ * P⁻¹ = quatOf 0 (-Real.sin θ) (Real.cos θ) 0 ∧
      P * axisK * P⁻¹ = axisK) := by
  have mI : axisI = quatOf 0 1 0 0 := rfl
  have mJ : axisJ = quatOf 0 0 1 0 := rfl
  have mK : axisK = quatOf 0 0 0 1 := rfl
  refine ⟨fun r => ⟨r.axis, ?_, ?_⟩, fun r => ⟨?_, r.axis, ?_⟩, fun r => ⟨?_, ?_, r.axis⟩⟩
  · rw [r.turn axisJ rfl (by rw [mI, mJ]; simp), mI, mJ]; ext <;> simp
  · rw [r.turn axisK rfl (by rw [mI, mK]; simp), mI, mK]; ext <;> simp
  · rw [r.turn axisI rfl (by rw [mJ, mI]; simp), mI, mJ]; ext <;> simp
  · rw [r.turn axisK rfl (by rw [mJ, mK]; simp), mK, mJ]; ext <;> simp
  · rw [r.turn axisI rfl (by rw [mK, mI]; simp), mI, mK]; ext <;> simp
  · rw [r.turn axisJ rfl (by rw [mK, mJ]; simp), mK, mJ]; ext <;> simp

/-- How far off the angles are that are read from a rotation about one axis by `θ`. -/
noncomputable def readBound (f : Fmt) (k : ℝ) (u : AngleUnit) (θ : ℝ) : ℝ :=
  (90 * k + 310 + (if u = .degrees then 200 * |θ| else 0)) / 2 ^ f.prec / Real.cos θ

/-- The quaternion of a rotation about one axis, and the images of the axes under it. -/
theorem single_quat {f : Fmt} (hf : f = .double ∨ f = .single) {L : Libm} {k : ℝ} (hL : Accurate f k L) (hk : k / 2 ^ f.prec ≤ 1 / 1000) (u : AngleUnit)
    {x : Flt} {a : ℝ} (hx : StandsReal f x a) (eo : EulerOrder) {q : Quat Flt} {A : ℍ[ℝ]}
    (hq : q = eulerQuat f L u x (.fin false 0) (.fin false 0) eo ∧ A = axisI ∨ q = eulerQuat f L u (.fin false 0) x (.fin false 0) eo ∧ A = axisJ ∨
      q = eulerQuat f L u (.fin false 0) (.fin false 0) x eo ∧ A = axisK) :
    ∃ Q T P, StandsQuat f q Q ∧ ‖T‖ = 1 ∧ RotatesBy P A (exactAngle u a) ∧ (∀ V, T * V * T⁻¹ = P * V * P⁻¹) ∧
      ‖Q - T‖ ≤ (61 / 10 * k + 20 + (if u = .degrees then 14 * |exactAngle u a| else 0)) / 2 ^ f.prec := by
  have z0 : StandsReal f (.fin false 0) 0 := ⟨0, zero_stands f hf false, by norm_num⟩
  have zero : exactAngle u 0 = 0 := by cases u <;> simp [exactAngle]
  have unit : ∀ {X Y Z : ℍ[ℝ]}, ‖X‖ = 1 → ‖Y‖ = 1 → ‖Z‖ = 1 → ‖turnsInOrder X Y Z eo‖ = 1 := by
    intro X Y Z h1 h2 h3
    cases eo <;> simp [turnsInOrder, h1, h2, h3]
  rcases hq with ⟨rfl, rfl⟩ | ⟨rfl, rfl⟩ | ⟨rfl, rfl⟩
  · obtain ⟨Q, X, Y, Z, sQ, rX, rY, rZ, h⟩ := C155_euler f hf L k hL hk u _ _ _ a 0 0 hx z0 z0 eo
    rw [zero] at rY rZ h
    obtain ⟨c, hc, eY⟩ := no_rotation (.inr (.inl rY))
    obtain ⟨d, hd, eZ⟩ := no_rotation (.inr (.inr rZ))
    obtain ⟨e, he, eT⟩ := (turns_single (X := X) eo hc hd).1 eY eZ
    exact ⟨Q, _, X, sQ, unit rX.unit rY.unit rZ.unit, rX, fun V => by rw [eT, scaled_image he], by simpa using h⟩
  · obtain ⟨Q, X, Y, Z, sQ, rX, rY, rZ, h⟩ := C155_euler f hf L k hL hk u _ _ _ 0 a 0 z0 hx z0 eo
    rw [zero] at rX rZ h
    obtain ⟨c, hc, eX⟩ := no_rotation (.inl rX)
    obtain ⟨d, hd, eZ⟩ := no_rotation (.inr (.inr rZ))
    obtain ⟨e, he, eT⟩ := (turns_single (Y := Y) eo hc hd).2.1 eX eZ
    exact ⟨Q, _, Y, sQ, unit rX.unit rY.unit rZ.unit, rY, fun V => by rw [eT, scaled_image he], by simpa using h⟩
  · obtain ⟨Q, X, Y, Z, sQ, rX, rY, rZ, h⟩ := C155_euler f hf L k hL hk u _ _ _ 0 0 a z0 z0 hx eo
    rw [zero] at rX rY h
    obtain ⟨c, hc, eX⟩ := no_rotation (.inl rX)
    obtain ⟨d, hd, eY⟩ := no_rotation (.inr (.inl rY))
    obtain ⟨e, he, eT⟩ := (turns_single (Z := Z) eo hc hd).2.2 eX eY
    exact ⟨Q, _, Z, sQ, unit rX.unit rY.unit rZ.unit, rZ, fun V => by rw [eT, scaled_image he], by simpa using h⟩

/-- The numbers in the bound. -/
theorem readBound_small {f : Fmt} {k θ W : ℝ} {u : AngleUnit} (hk0 : 0 ≤ k) (hW : W = 61 / 10 * k + 20 + (if u = .degrees then 14 * |θ| else 0))
    (hc : 0 < Real.cos θ) (hE : readBound f k u θ ≤ 1 / 100) : W / 2 ^ f.prec ≤ 1 / 1000 ∧ Real.pi / 2 * ((9 * W + 15 + k) / 2 ^ f.prec / Real.cos θ) ≤ readBound f k u θ := by
  have hu : (0 : ℝ) < 2 ^ f.prec := by positivity
  have hp := Real.pi_lt_d2
  have hp0 := Real.pi_pos
  have i0 : 0 ≤ (if u = .degrees then |θ| else 0) := by split_ifs <;> positivity
  have i1 : (if u = .degrees then 14 * |θ| else 0) = 14 * (if u = .degrees then |θ| else 0) := by split_ifs <;> simp
  have i2 : (if u = .degrees then 200 * |θ| else 0) = 200 * (if u = .degrees then |θ| else 0) := by split_ifs <;> simp
  unfold readBound at *
  rw [i2] at hE ⊢
  rw [i1] at hW
  generalize (if u = .degrees then |θ| else 0) = d at *
  have c1 := Real.cos_le_one θ
  constructor
  · rw [div_div, div_le_iff₀ (by positivity)] at hE
    rw [div_le_iff₀ hu, hW]
    have : (2 : ℝ) ^ f.prec * Real.cos θ ≤ 2 ^ f.prec := mul_le_of_le_one_right hu.le c1
    linarith
  · rw [← mul_div_assoc, ← mul_div_assoc]
    gcongr
    have : Real.pi / 2 * (9 * W + 15 + k) ≤ 315 / 200 * (9 * W + 15 + k) := by
      apply mul_le_mul_of_nonneg_right (by linarith)
      rw [hW]
      linarith
    rw [hW] at this ⊢
    linarith

/-- A rotation about one of the axes, made from Euler angles in any order, less than a right angle: reading its Euler angles gives back the
angle and two angles near zero. -/
theorem C158_single_partial (f : Fmt) (hf : f = .double ∨ f = .single) (L : Libm) (g : Flt → Flt → Flt) (k : ℝ) (hL : Accurate f k L)
    (hg : AccurateAngle f k g) (hk : k / 2 ^ f.prec ≤ 1 / 1000) (u : AngleUnit) (x : Flt) (a θ : ℝ) (hx : StandsReal f x a) (hθ : θ = exactAngle u a)
    (h : |θ| < Real.pi / 2) (hE : readBound f k u θ ≤ 1 / 100) (eo : EulerOrder) :
    Near3 f (quatEuler f g (eulerQuat f L u x (.fin false 0) (.fin false 0) eo)) θ 0 0 (readBound f k u θ) ∧
    Near3 f (quatEuler f g (eulerQuat f L u (.fin false 0) x (.fin false 0) eo)) 0 θ 0 (readBound f k u θ) ∧
    Near3 f (quatEuler f g (eulerQuat f L u (.fin false 0) (.fin false 0) x eo)) 0 0 θ (readBound f k u θ) := by
  have hc : 0 < Real.cos θ := Real.cos_pos_of_mem_Ioo ⟨by linarith [(abs_lt.1 h).1], (abs_lt.1 h).2⟩
  have c1 := Real.cos_le_one θ
  have hp0 := Real.pi_pos
  have o1 : StandsReal f (.fin false 1) 1 := ⟨1, one_stands hf, by norm_num⟩
  have k0 : 0 ≤ k := by
    obtain ⟨t, φ, _, _, _, hk'⟩ := hg _ _ 1 1 o1 o1
    have := (abs_nonneg _).trans hk'
    obtain ⟨hu0, -⟩ := real_consts hf
    by_contra hn
    have := mul_neg_of_neg_of_pos (not_le.1 hn) hu0
    linarith
  obtain ⟨w1, w2⟩ := readBound_small (f := f) (u := u) k0 rfl hc hE
  set W : ℝ := 61 / 10 * k + 20 + (if u = .degrees then 14 * |θ| else 0) with hW
  have W0 : 0 ≤ W := by
    rw [hW]
    have : 0 ≤ (if u = .degrees then 14 * |θ| else 0) := by split_ifs <;> positivity
    linarith
  have e0 := bound_nonneg (ω := W) hf hg (by positivity)
  have e1 : Real.pi / 2 * ((9 * W + 15 + k) / 2 ^ f.prec / 1) ≤ readBound f k u θ := by
    refine le_trans ?_ w2
    gcongr
  have near : ∀ {t r φ : ℝ}, (r = 1 ∨ r = Real.cos θ) → |φ| ≤ Real.pi / 2 → PointsTo t (r * Real.cos φ) (r * Real.sin φ) ((9 * W + 15 + k) / 2 ^ f.prec) →
      |t| ≤ Real.pi + k / 2 ^ f.prec → |t - φ| ≤ readBound f k u θ := by
    intro t r φ hr hφ hp ht
    rcases hr with rfl | rfl
    · exact (angle_recover (by norm_num) hφ hp e0 (by linarith) (by linarith)).trans e1
    · exact (angle_recover hc hφ hp e0 (by linarith) (by linarith)).trans w2
  have hz : |(0 : ℝ)| ≤ Real.pi / 2 := by rw [abs_zero]; linarith
  have mI : axisI = quatOf 0 1 0 0 := rfl
  have mJ : axisJ = quatOf 0 0 1 0 := rfl
  have mK : axisK = quatOf 0 0 0 1 := rfl
  refine ⟨?_, ?_, ?_⟩
  · obtain ⟨Q, T, P, sQ, uT, rP, im, hQ⟩ := single_quat hf hL hk u hx eo (.inl ⟨rfl, rfl⟩)
    rw [← hθ] at rP hQ
    obtain ⟨p, y, r, ⟨_, sp, sy, sr⟩, hb, h1, h2, h3⟩ := C158_directions f hf g k hg _ Q T sQ uT W hQ w1
    obtain ⟨aI, aJ, aK⟩ := axis_images.1 rP
    rw [im, aJ] at h1
    rw [im, aK] at h2
    rw [im, aI, mI] at h3
    exact ⟨p, y, r, sp, sy, sr, near (.inl rfl) h.le (by simpa using h1) (hb p (by simp)), near (.inr rfl) hz (by simpa using h2) (hb y (by simp)),
      near (.inl rfl) hz (by simpa using h3) (hb r (by simp))⟩
  · obtain ⟨Q, T, P, sQ, uT, rP, im, hQ⟩ := single_quat hf hL hk u hx eo (.inr (.inl ⟨rfl, rfl⟩))
    rw [← hθ] at rP hQ
    obtain ⟨p, y, r, ⟨_, sp, sy, sr⟩, hb, h1, h2, h3⟩ := C158_directions f hf g k hg _ Q T sQ uT W hQ w1
    obtain ⟨aI, aJ, aK⟩ := axis_images.2.1 rP
    rw [im, aJ, mJ] at h1
    rw [im, aK] at h2
    rw [im, aI] at h3
    exact ⟨p, y, r, sp, sy, sr, near (.inl rfl) hz (by simpa using h1) (hb p (by simp)), near (.inl rfl) h.le (by simpa using h2) (hb y (by simp)),
      near (.inr rfl) hz (by simpa using h3) (hb r (by simp))⟩
  · obtain ⟨Q, T, P, sQ, uT, rP, im, hQ⟩ := single_quat hf hL hk u hx eo (.inr (.inr ⟨rfl, rfl⟩))
    rw [← hθ] at rP hQ
    obtain ⟨p, y, r, ⟨_, sp, sy, sr⟩, hb, h1, h2, h3⟩ := C158_directions f hf g k hg _ Q T sQ uT W hQ w1
    obtain ⟨aI, aJ, aK⟩ := axis_images.2.2 rP
    rw [im, aJ] at h1
    rw [im, aK, mK] at h2
    rw [im, aI] at h3
    exact ⟨p, y, r, sp, sy, sr, near (.inr rfl) hz (by simpa using h1) (hb p (by simp)), near (.inl rfl) hz (by simpa using h2) (hb y (by simp)),
      near (.inl rfl) h.le (by simpa using h3) (hb r (by simp))⟩

/-- One radian about the first axis, in `double`. -/
example : ∃ L g, Accurate .double 8 L ∧ AccurateAngle .double 8 g ∧
    Near3 .double (quatEuler .double g (eulerQuat .double L .radians (.fin false 1) (.fin false 0) (.fin false 0) .zyx)) 1 0 0 (2100 / 2 ^ 53) := by
  have hd : Fmt.double = .double ∨ Fmt.double = .single := .inl rfl
  obtain ⟨L, hL⟩ := accurate_exists hd
  obtain ⟨g, hg⟩ := accurateAngle_exists hd
  have o1 : StandsReal .double (.fin false 1) 1 := ⟨1, one_stands hd, by norm_num⟩
  have hp := Real.pi_gt_three
  have hc : (1 / 2 : ℝ) ≤ Real.cos 1 := by
    rw [← Real.cos_pi_div_three]
    exact Real.cos_le_cos_of_nonneg_of_le_pi (by norm_num) (by linarith) (by linarith)
  have hr : readBound .double 8 .radians 1 ≤ 2100 / 2 ^ 53 := by
    unfold readBound
    rw [if_neg (by decide), show Fmt.double.prec = 53 from rfl, div_le_iff₀ (by linarith)]
    linarith
  obtain ⟨⟨x, y, z, sx, sy, sz, h1, h2, h3⟩, -⟩ := C158_single_partial .double hd L g 8 hL hg (by norm_num [Fmt.double]) .radians _ 1 1 o1 rfl
    (by rw [abs_one]; linarith) (hr.trans (by norm_num)) .zyx
  exact ⟨L, g, hL, hg, x, y, z, sx, sy, sz, h1.trans hr, h2.trans hr, h3.trans hr⟩

/-- Beyond a right angle it is not so: of a rotation about the first axis by two radians the angle about the second axis that is read is more
than two radians as well. -/
theorem C158_beyond_refuted (L : Libm) (g : Flt → Flt → Flt) (hL : Accurate .double 8 L) (hg : AccurateAngle .double 8 g) (eo : EulerOrder) :
    ∃ y, StandsReal .double (quatEuler .double g (eulerQuat .double L .radians (.fin false 2) (.fin false 0) (.fin false 0) eo)).y y ∧ 2 < |y| := by
  have hd : Fmt.double = .double ∨ Fmt.double = .single := .inl rfl
  have hp := Real.pi_gt_three
  have hp4 := Real.pi_le_four
  have hp2 := Real.pi_lt_d2
  have o2 : StandsReal .double (.fin false 2) 2 :=
    ⟨2, ⟨⟨by norm_num, by decide +kernel, by simpa using pow_binary hd 1⟩, rfl⟩, by norm_num⟩
  obtain ⟨Q, T, P, sQ, uT, rP, im, hQ⟩ := single_quat hd hL (by norm_num [Fmt.double]) .radians o2 eo (.inl ⟨rfl, rfl⟩)
  rw [if_neg (by decide)] at hQ
  obtain ⟨p, y, r, ⟨_, sp, sy, sr⟩, hb, h1, h2, h3⟩ := C158_directions .double hd g 8 hg _ Q T sQ uT _ hQ (by norm_num [Fmt.double])
  obtain ⟨aI, aJ, aK⟩ := axis_images.1 rP
  rw [im, aK] at h2
  refine ⟨y, sy, ?_⟩
  by_contra hy
  have hy' : |y| ≤ 2 * (Real.pi / 3) := by linarith [not_lt.1 hy]
  have c1 : -(1 / 2) ≤ Real.cos y := by
    rw [← Real.cos_abs y]
    have := Real.cos_le_cos_of_nonneg_of_le_pi (abs_nonneg y) (by linarith) hy'
    rw [Real.cos_two_mul, Real.cos_pi_div_three] at this
    linarith
  have c2 : Real.cos 2 ≤ -(1 / 4) := by
    have h15 : Real.cos 2 = 2 * Real.cos 1 ^ 2 - 1 := by rw [← Real.cos_two_mul]; norm_num
    have := Real.cos_one_le
    have := Real.cos_one_pos
    rw [h15]
    nlinarith
  have e : (radius (Real.cos 2) 0 * Real.cos y - Real.cos 2) ^ 2 ≤ (1 / 100) ^ 2 := by
    have h2' : PointsTo y (Real.cos 2) 0 ((9 * (61 / 10 * 8 + 20 + 0) + 15 + 8) / 2 ^ Fmt.double.prec) := by simpa [exactAngle] using h2
    have := le_trans (le_add_of_nonneg_right (sq_nonneg _)) h2'
    exact this.trans (by norm_num [Fmt.double])
  have r1 : radius (Real.cos 2) 0 = -Real.cos 2 := by
    unfold radius
    rw [show Real.cos 2 ^ 2 + (0 : ℝ) ^ 2 = Real.cos 2 ^ 2 by ring, Real.sqrt_sq_eq_abs, abs_of_nonpos (by linarith)]
  rw [r1] at e
  have := abs_le_of_sq_le_sq e (by norm_num)
  have h5 := (abs_le.1 this).2
  nlinarith

example : ∃ L g, Accurate .double 8 L ∧ AccurateAngle .double 8 g := by
  obtain ⟨L, hL⟩ := accurate_exists (.inl rfl : Fmt.double = .double ∨ _)
  obtain ⟨g, hg⟩ := accurateAngle_exists (.inl rfl : Fmt.double = .double ∨ _)
  exact ⟨L, g, hL, hg⟩

end Flut
