import Verif.Model.FloatTransform
import Verif.Props.FloatRotation

/-! # Property theorems: transforms in floating-point arithmetic (C120)

A transform is a vector `P` and a quaternion `Q`; it takes `V` to `P + Q * V * Q⁻¹`, and its inverse takes `V` to `Q⁻¹ * (V - P) * Q`. -/

namespace Flut

open Spec FloatMath Quaternion

/-- A floating-point transform stands for a vector and a quaternion. -/
def StandsTrans (f : Fmt) (t : Trans Flt) (P Q : ℍ[ℝ]) : Prop := StandsVec f t.p P ∧ StandsQuat f t.q Q

theorem star_rotation {Q V : ℍ[ℝ]} (h : Q ≠ 0) : star Q * V * (star Q)⁻¹ = Q⁻¹ * V * Q := by
  have hn : ‖Q‖ ≠ 0 := norm_ne_zero_iff.2 h
  have e : star Q = ‖Q‖ ^ 2 • Q⁻¹ := by
    rw [show Q⁻¹ = (normSq Q)⁻¹ • star Q from rfl, smul_smul, normSq_eq_norm_mul_self, pow_two, mul_inv_cancel₀ (by positivity), one_smul]
  rw [e, smul_inv₀, inv_inv, smul_mul_assoc, smul_mul_smul_comm, mul_inv_cancel₀ (by positivity), one_smul]

theorem inverse_norm {Q V : ℍ[ℝ]} (h : Q ≠ 0) : ‖Q⁻¹ * V * Q‖ = ‖V‖ := by
  have := norm_pos_iff.2 h
  rw [norm_mul, norm_mul, norm_inv]
  field_simp

theorem subVec_close {f : Fmt} (hf : f = .double ∨ f = .single) {v w : Vec3 Flt} {V W : ℍ[ℝ]} (h1 : StandsVec f v V)
    (h2 : StandsVec f w W) (h : ‖V - W‖ ≤ f.maxVal) :
    ∃ R, StandsVec f (vecSub f v w) R ∧ ‖R - (V - W)‖ ≤ 1 / 2 ^ f.prec * ‖V - W‖ := by
  have hn : StandsVec f (vecNeg w) (-W) := by
    obtain ⟨z, ⟨a, sa, ea⟩, ⟨b, sb, eb⟩, ⟨c, sc, ec⟩⟩ := h2
    exact ⟨by simp [z], ⟨-a, neg_stands sa, by simp [ea]⟩, ⟨-b, neg_stands sb, by simp [eb]⟩, ⟨-c, neg_stands sc, by simp [ec]⟩⟩
  have := addVec_close hf h1 hn (by rwa [← sub_eq_add_neg])
  rw [← sub_eq_add_neg] at this
  exact this

theorem neg_vec {f : Fmt} {v : Vec3 Flt} {V : ℍ[ℝ]} (h : StandsVec f v V) : StandsVec f (vecNeg v) (-V) := by
  obtain ⟨z, ⟨a, sa, ea⟩, ⟨b, sb, eb⟩, ⟨c, sc, ec⟩⟩ := h
  exact ⟨by simp [z], ⟨-a, neg_stands sa, by simp [ea]⟩, ⟨-b, neg_stands sb, by simp [eb]⟩, ⟨-c, neg_stands sc, by simp [ec]⟩⟩

theorem near_ne {Q : ℍ[ℝ]} {δ : ℝ} (h : |‖Q‖ - 1| ≤ δ) (hδ : δ ≤ 1 / 1000) : Q ≠ 0 := by
  rintro rfl
  have := abs_le.1 h
  rw [norm_zero] at this
  linarith

/-- What `p + q * v` gives. -/
theorem transVec_close {f : Fmt} (hf : f = .double ∨ f = .single) {t : Trans Flt} {v : Vec3 Flt} {P Q V : ℍ[ℝ]} {δ : ℝ} (ht : StandsTrans f t P Q)
    (hv : StandsVec f v V) (h1 : |‖Q‖ - 1| ≤ δ) (hδ : δ ≤ 1 / 1000) (hP : ‖P‖ ≤ f.maxVal / 4) (hV : ‖V‖ ≤ f.maxVal / 16) :
    ∃ R, StandsVec f (transVec f t v) R ∧
      ‖R - (P + Q * V * Q⁻¹)‖ ≤ 1 / 2 ^ f.prec * ‖P‖ + (24 * (1 / 2 ^ f.prec) + 6 * δ) * ‖V‖ + 27 * 2 ^ f.emin := by
  obtain ⟨hu0, hu, hη0, hη, hM⟩ := real_consts hf
  obtain ⟨S, sS, eS, nS⟩ := C119_rotation f hf t.q Q v V δ ht.2 hv h1 hδ hV
  have δ0 : 0 ≤ δ := (abs_nonneg _).trans h1
  have n := norm_nonneg V
  have g : (22 : ℝ) / 2 ^ f.prec = 22 * (1 / 2 ^ f.prec) := (mul_one_div _ _).symm
  rw [g] at eS nS
  set u := 1 / (2 : ℝ) ^ f.prec with hu_def
  set η := (2 : ℝ) ^ f.emin with hη_def
  have k1 : (22 * u + 5 * δ) * ‖V‖ ≤ 1 / 100 * ‖V‖ := by apply mul_le_mul_of_nonneg_right _ n; linarith
  have nS' := (abs_le.1 nS).2
  have nPS : ‖P + S‖ ≤ ‖P‖ + 101 / 100 * ‖V‖ + 26 * η := by
    have := norm_add_le P S
    linarith
  obtain ⟨R, sR, eR⟩ := addVec_close hf ht.1 sS (by linarith)
  rw [← hu_def] at eR
  refine ⟨R, sR, ?_⟩
  have t1 := norm_add_le (R - (P + S)) (S - Q * V * Q⁻¹)
  have e1 : R - (P + S) + (S - Q * V * Q⁻¹) = R - (P + Q * V * Q⁻¹) := by abel
  rw [e1] at t1
  have k2 : u * ‖P + S‖ ≤ u * (‖P‖ + 101 / 100 * ‖V‖ + 26 * η) := mul_le_mul_of_nonneg_left nPS hu0.le
  have k3 : u * η ≤ 1 / 16777216 * η := mul_le_mul_of_nonneg_right hu hη0.le
  have k4 : 0 ≤ u * ‖V‖ := by positivity
  have k5 : 0 ≤ δ * ‖V‖ := by positivity
  have e2 : u * (‖P‖ + 101 / 100 * ‖V‖ + 26 * η) = u * ‖P‖ + 101 / 100 * (u * ‖V‖) + 26 * (u * η) := by ring
  have e3 : (22 * u + 5 * δ) * ‖V‖ = 22 * (u * ‖V‖) + 5 * (δ * ‖V‖) := by ring
  have e4 : (24 * u + 6 * δ) * ‖V‖ = 24 * (u * ‖V‖) + 6 * (δ * ‖V‖) := by ring
  rw [e4]
  linarith

/-- What `-q * ( v - p )` gives. -/
theorem transInvVec_close {f : Fmt} (hf : f = .double ∨ f = .single) {q : Quat Flt} {p v : Vec3 Flt} {P Q V : ℍ[ℝ]} {δ : ℝ} (hp : StandsVec f p P)
    (hq : StandsQuat f q Q) (hv : StandsVec f v V) (h1 : |‖Q‖ - 1| ≤ δ) (hδ : δ ≤ 1 / 1000) (hV : ‖V - P‖ ≤ f.maxVal / 32) :
    ∃ R, StandsVec f (rotate f (quatConj q) (vecSub f v p)) R ∧
      ‖R - Q⁻¹ * (V - P) * Q‖ ≤ (24 * (1 / 2 ^ f.prec) + 6 * δ) * ‖V - P‖ + 27 * 2 ^ f.emin := by
  obtain ⟨hu0, hu, hη0, hη, hM⟩ := real_consts hf
  obtain ⟨D, sD, eD⟩ := subVec_close hf hv hp (by linarith)
  have δ0 : 0 ≤ δ := (abs_nonneg _).trans h1
  have n := norm_nonneg (V - P)
  have hQ := near_ne h1 hδ
  have g : (22 : ℝ) / 2 ^ f.prec = 22 * (1 / 2 ^ f.prec) := (mul_one_div _ _).symm
  have hul : 1 / 2 ^ f.prec * ‖V - P‖ ≤ 1 / 16777216 * ‖V - P‖ := mul_le_mul_of_nonneg_right hu n
  have nD : ‖D‖ ≤ (1 + 1 / 2 ^ f.prec) * ‖V - P‖ := by
    have := norm_add_le (D - (V - P)) (V - P)
    rw [sub_add_cancel] at this
    linarith
  have nD2 : ‖D‖ ≤ 101 / 100 * ‖V - P‖ := by linarith
  obtain ⟨R, sR, eR, -⟩ := C119_rotation f hf _ (star Q) _ D δ (C118_conjugate f q Q hq) sD (by rwa [norm_star]) hδ (by linarith)
  rw [g, star_rotation hQ] at eR
  set u := 1 / (2 : ℝ) ^ f.prec with hu_def
  set η := (2 : ℝ) ^ f.emin with hη_def
  refine ⟨R, sR, ?_⟩
  have t1 := norm_add_le (R - Q⁻¹ * D * Q) (Q⁻¹ * (D - (V - P)) * Q)
  have e1 : R - Q⁻¹ * D * Q + Q⁻¹ * (D - (V - P)) * Q = R - Q⁻¹ * (V - P) * Q := by rw [mul_sub, sub_mul]; abel
  rw [e1, inverse_norm hQ] at t1
  have k1 : (22 * u + 5 * δ) * ‖D‖ ≤ (22 * u + 5 * δ) * (101 / 100 * ‖V - P‖) := mul_le_mul_of_nonneg_left nD2 (by positivity)
  have k4 : 0 ≤ u * ‖V - P‖ := by positivity
  have k5 : 0 ≤ δ * ‖V - P‖ := by positivity
  have e3 : (22 * u + 5 * δ) * (101 / 100 * ‖V - P‖) = 2222 / 100 * (u * ‖V - P‖) + 505 / 100 * (δ * ‖V - P‖) := by ring
  have e4 : (24 * u + 6 * δ) * ‖V - P‖ = 24 * (u * ‖V - P‖) + 6 * (δ * ‖V - P‖) := by ring
  rw [e4]
  linarith

/-! ## C120 -/

/-- Transforming a vector: right to a unit of the length of the position and sixty units of the length of the vector. -/
theorem C120_vector (f : Fmt) (hf : f = .double ∨ f = .single) (t : Trans Flt) (v : Vec3 Flt) (P Q V : ℍ[ℝ]) (ht : StandsTrans f t P Q)
    (hv : StandsVec f v V) (h1 : NearlyUnit f Q) (hP : ‖P‖ ≤ f.maxVal / 4) (hV : ‖V‖ ≤ f.maxVal / 16) :
    ∃ R, StandsVec f (transVec f t v) R ∧ ‖R - (P + Q * V * Q⁻¹)‖ ≤ 1 / 2 ^ f.prec * (‖P‖ + 60 * ‖V‖) + 27 * 2 ^ f.emin := by
  obtain ⟨R, sR, eR⟩ := transVec_close hf ht hv h1 (h1.le hf) hP hV
  exact ⟨R, sR, eR.trans (le_of_eq (by ring))⟩

/-- Transforming a vector back: right to sixty units of its distance from the position. -/
theorem C120_inverse_vector (f : Fmt) (hf : f = .double ∨ f = .single) (t : Trans Flt) (v : Vec3 Flt) (P Q V : ℍ[ℝ]) (ht : StandsTrans f t P Q)
    (hv : StandsVec f v V) (h1 : NearlyUnit f Q) (hV : ‖V - P‖ ≤ f.maxVal / 32) :
    ∃ R, StandsVec f (transInvVec f t v) R ∧ ‖R - Q⁻¹ * (V - P) * Q‖ ≤ 60 / 2 ^ f.prec * ‖V - P‖ + 27 * 2 ^ f.emin := by
  obtain ⟨R, sR, eR⟩ := transInvVec_close hf ht.1 ht.2 hv h1 (h1.le hf) hV
  exact ⟨R, sR, eR.trans (le_of_eq (by ring))⟩

/-- A vector that is transformed and transformed back is the vector again, to 121 units of its length and two of the length of the position. -/
theorem C120_there_and_back (f : Fmt) (hf : f = .double ∨ f = .single) (t : Trans Flt) (v : Vec3 Flt) (P Q V : ℍ[ℝ]) (ht : StandsTrans f t P Q)
    (hv : StandsVec f v V) (h1 : NearlyUnit f Q) (hP : ‖P‖ ≤ f.maxVal / 100) (hV : ‖V‖ ≤ f.maxVal / 100) :
    ∃ R, StandsVec f (transInvVec f t (transVec f t v)) R ∧ ‖R - V‖ ≤ 1 / 2 ^ f.prec * (2 * ‖P‖ + 121 * ‖V‖) + 55 * 2 ^ f.emin := by
  obtain ⟨hu0, hu, hη0, hη, hM⟩ := real_consts hf
  have n := norm_nonneg V
  have nP := norm_nonneg P
  have hQ := near_ne h1 (h1.le hf)
  obtain ⟨A, sA, eA⟩ := C120_vector f hf t v P Q V ht hv h1 (by linarith) (by linarith)
  have nA : ‖A - P‖ ≤ ‖V‖ + ‖A - (P + Q * V * Q⁻¹)‖ := by
    have := norm_add_le (A - (P + Q * V * Q⁻¹)) (Q * V * Q⁻¹)
    rw [rotation_norm hQ, show A - (P + Q * V * Q⁻¹) + Q * V * Q⁻¹ = A - P by abel] at this
    linarith
  set u := 1 / (2 : ℝ) ^ f.prec with hu_def
  set η := (2 : ℝ) ^ f.emin with hη_def
  have k1 : u * (‖P‖ + 60 * ‖V‖) ≤ 1 / 16777216 * (‖P‖ + 60 * ‖V‖) := mul_le_mul_of_nonneg_right hu (by positivity)
  obtain ⟨R, sR, eR⟩ := C120_inverse_vector f hf t _ P Q A ht sA h1 (by linarith)
  rw [show (60 : ℝ) / 2 ^ f.prec = 60 * u from (mul_one_div _ _).symm, ← hη_def] at eR
  refine ⟨R, sR, ?_⟩
  have t1 := norm_add_le (R - Q⁻¹ * (A - P) * Q) (Q⁻¹ * (A - (P + Q * V * Q⁻¹)) * Q)
  have e1 : R - Q⁻¹ * (A - P) * Q + Q⁻¹ * (A - (P + Q * V * Q⁻¹)) * Q = R - V := by
    have : Q⁻¹ * (Q * V * Q⁻¹) * Q = V := by
      rw [mul_assoc Q, ← mul_assoc, inv_mul_cancel₀ hQ, one_mul, mul_assoc, inv_mul_cancel₀ hQ, mul_one]
    rw [← sub_sub, mul_sub _ (A - P), sub_mul, this]; abel
  rw [e1, inverse_norm hQ] at t1
  have k2 : u * ‖A - P‖ ≤ u * (‖V‖ + ‖A - (P + Q * V * Q⁻¹)‖) := mul_le_mul_of_nonneg_left nA hu0.le
  have k3 : u * ‖A - (P + Q * V * Q⁻¹)‖ ≤ 1 / 16777216 * (u * (‖P‖ + 60 * ‖V‖) + 27 * η) :=
    (mul_le_mul_of_nonneg_left eA hu0.le).trans (mul_le_mul_of_nonneg_right hu (by positivity))
  have k4 : 0 ≤ u * ‖V‖ := by positivity
  have k5 : 0 ≤ u * ‖P‖ := by positivity
  have e2 : u * (‖P‖ + 60 * ‖V‖) = u * ‖P‖ + 60 * (u * ‖V‖) := by ring
  have e3 : u * (2 * ‖P‖ + 121 * ‖V‖) = 2 * (u * ‖P‖) + 121 * (u * ‖V‖) := by ring
  have e4 : u * (‖V‖ + ‖A - (P + Q * V * Q⁻¹)‖) = u * ‖V‖ + u * ‖A - (P + Q * V * Q⁻¹)‖ := by ring
  have e5 : 60 * u * ‖A - P‖ = 60 * (u * ‖A - P‖) := by ring
  rw [e3]
  rw [e5] at eR
  rw [e2] at eA k3
  linarith

/-- And in the other order. -/
theorem C120_back_and_there (f : Fmt) (hf : f = .double ∨ f = .single) (t : Trans Flt) (v : Vec3 Flt) (P Q V : ℍ[ℝ]) (ht : StandsTrans f t P Q)
    (hv : StandsVec f v V) (h1 : NearlyUnit f Q) (hP : ‖P‖ ≤ f.maxVal / 4) (hV : ‖V - P‖ ≤ f.maxVal / 100) :
    ∃ R, StandsVec f (transVec f t (transInvVec f t v)) R ∧ ‖R - V‖ ≤ 1 / 2 ^ f.prec * (‖P‖ + 121 * ‖V - P‖) + 55 * 2 ^ f.emin := by
  obtain ⟨hu0, hu, hη0, hη, hM⟩ := real_consts hf
  have n := norm_nonneg (V - P)
  have nP := norm_nonneg P
  have hQ := near_ne h1 (h1.le hf)
  obtain ⟨A, sA, eA⟩ := C120_inverse_vector f hf t v P Q V ht hv h1 (by linarith)
  rw [show (60 : ℝ) / 2 ^ f.prec = 60 * (1 / 2 ^ f.prec) from (mul_one_div _ _).symm] at eA
  set u := 1 / (2 : ℝ) ^ f.prec with hu_def
  set η := (2 : ℝ) ^ f.emin with hη_def
  have nA : ‖A‖ ≤ ‖V - P‖ + ‖A - Q⁻¹ * (V - P) * Q‖ := by
    have := norm_add_le (A - Q⁻¹ * (V - P) * Q) (Q⁻¹ * (V - P) * Q)
    rw [inverse_norm hQ, sub_add_cancel] at this
    linarith
  have k1 : u * ‖V - P‖ ≤ 1 / 16777216 * ‖V - P‖ := mul_le_mul_of_nonneg_right hu n
  obtain ⟨R, sR, eR⟩ := C120_vector f hf t _ P Q A ht sA h1 hP (by linarith)
  rw [← hu_def, ← hη_def] at eR
  refine ⟨R, sR, ?_⟩
  have t1 := norm_add_le (R - (P + Q * A * Q⁻¹)) (Q * (A - Q⁻¹ * (V - P) * Q) * Q⁻¹)
  have e1 : R - (P + Q * A * Q⁻¹) + Q * (A - Q⁻¹ * (V - P) * Q) * Q⁻¹ = R - V := by
    have : Q * (Q⁻¹ * (V - P) * Q) * Q⁻¹ = V - P := by
      rw [mul_assoc Q⁻¹, ← mul_assoc Q, mul_inv_cancel₀ hQ, one_mul, mul_assoc, mul_inv_cancel₀ hQ, mul_one]
    rw [mul_sub Q, sub_mul, this]; abel
  rw [e1, rotation_norm hQ] at t1
  have k2 : u * ‖A‖ ≤ u * (‖V - P‖ + ‖A - Q⁻¹ * (V - P) * Q‖) := mul_le_mul_of_nonneg_left nA hu0.le
  have k3 : u * ‖A - Q⁻¹ * (V - P) * Q‖ ≤ 1 / 16777216 * (60 * u * ‖V - P‖ + 27 * η) :=
    (mul_le_mul_of_nonneg_left eA hu0.le).trans (mul_le_mul_of_nonneg_right hu (by positivity))
  have k4 : 0 ≤ u * ‖V - P‖ := by positivity
  have k5 : 0 ≤ u * ‖P‖ := by positivity
  have e2 : 60 * u * ‖V - P‖ = 60 * (u * ‖V - P‖) := by ring
  have e3 : u * (‖P‖ + 121 * ‖V - P‖) = u * ‖P‖ + 121 * (u * ‖V - P‖) := by ring
  have e4 : u * (‖V - P‖ + ‖A - Q⁻¹ * (V - P) * Q‖) = u * ‖V - P‖ + u * ‖A - Q⁻¹ * (V - P) * Q‖ := by ring
  have e5 : u * (‖P‖ + 60 * ‖A‖) = u * ‖P‖ + 60 * (u * ‖A‖) := by ring
  rw [e3]
  rw [e5] at eR
  rw [e2] at eA k3
  linarith

/-- Transforming by a product of transforms is transforming by one after the other. -/
theorem C120_product (f : Fmt) (hf : f = .double ∨ f = .single) (t1 t2 : Trans Flt) (v : Vec3 Flt) (P1 Q1 P2 Q2 V : ℍ[ℝ])
    (ht1 : StandsTrans f t1 P1 Q1) (ht2 : StandsTrans f t2 P2 Q2) (hv : StandsVec f v V) (h1 : NearlyUnit f Q1) (h2 : NearlyUnit f Q2)
    (hP1 : ‖P1‖ ≤ f.maxVal / 100) (hP2 : ‖P2‖ ≤ f.maxVal / 100) (hV : ‖V‖ ≤ f.maxVal / 100) :
    ∃ R, StandsVec f (transVec f (transMul f t1 t2) v) R ∧ ‖R - (P1 + Q1 * (P2 + Q2 * V * Q2⁻¹) * Q1⁻¹)‖ ≤
      1 / 2 ^ f.prec * (3 * ‖P1‖ + 62 * ‖P2‖ + 171 * ‖V‖) + 55 * 2 ^ f.emin := by
  obtain ⟨hu0, hu, hη0, hη, hM⟩ := real_consts hf
  have n := norm_nonneg V
  have n1 := norm_nonneg P1
  have n2 := norm_nonneg P2
  have hQ1 := near_ne h1 (h1.le hf)
  have hQ2 := near_ne h2 (h2.le hf)
  obtain ⟨A, sA, eA⟩ := C120_vector f hf t1 t2.p P1 Q1 P2 ht1 ht2.1 h1 (by linarith) (by linarith)
  obtain ⟨B, sB, b1, b2⟩ := product_step hf ht1.2 ht2.2 (S := Q1) (γ := 0) h1 ((h1.le hf).trans (by norm_num)) h2 (by simp) (by norm_num)
  rw [show (6 : ℝ) / 2 ^ f.prec = 6 * (1 / 2 ^ f.prec) from (mul_one_div _ _).symm,
    show (15 : ℝ) / 2 ^ f.prec = 15 * (1 / 2 ^ f.prec) from (mul_one_div _ _).symm] at b1
  rw [show (9 : ℝ) / 2 ^ f.prec = 9 * (1 / 2 ^ f.prec) from (mul_one_div _ _).symm, zero_add] at b2
  set u := 1 / (2 : ℝ) ^ f.prec with hu_def
  set η := (2 : ℝ) ^ f.emin with hη_def
  have k1 : u * (‖P1‖ + 60 * ‖P2‖) ≤ 1 / 16777216 * (‖P1‖ + 60 * ‖P2‖) := mul_le_mul_of_nonneg_right hu (by positivity)
  have nA : ‖A‖ ≤ ‖P1‖ + ‖P2‖ + ‖A - (P1 + Q1 * P2 * Q1⁻¹)‖ := by
    have := norm_add_le (A - (P1 + Q1 * P2 * Q1⁻¹)) (P1 + Q1 * P2 * Q1⁻¹)
    have := norm_add_le P1 (Q1 * P2 * Q1⁻¹)
    rw [rotation_norm hQ1] at this
    rw [sub_add_cancel] at *
    linarith
  have c := rotation_close (V := V) (by linarith [(abs_le.1 b1).1]) (mul_ne_zero hQ1 hQ2) b2
  obtain ⟨R, sR, eR⟩ := transVec_close hf (t := transMul f t1 t2) ⟨sA, sB⟩ hv b1 (by linarith) (by linarith) (by linarith)
  rw [← hu_def, ← hη_def] at eR
  refine ⟨R, sR, ?_⟩
  have t3 := norm_add₃_le (a := R - (A + B * V * B⁻¹)) (b := A - (P1 + Q1 * P2 * Q1⁻¹)) (c := B * V * B⁻¹ - Q1 * Q2 * V * (Q1 * Q2)⁻¹)
  have e1 : R - (A + B * V * B⁻¹) + (A - (P1 + Q1 * P2 * Q1⁻¹)) + (B * V * B⁻¹ - Q1 * Q2 * V * (Q1 * Q2)⁻¹) =
      R - (P1 + Q1 * (P2 + Q2 * V * Q2⁻¹) * Q1⁻¹) := by
    have : Q1 * Q2 * V * (Q1 * Q2)⁻¹ = Q1 * (Q2 * V * Q2⁻¹) * Q1⁻¹ := by rw [mul_inv_rev]; simp only [mul_assoc]
    rw [this, mul_add, add_mul]; abel
  rw [e1] at t3
  have k2 : u * ‖A‖ ≤ u * (‖P1‖ + ‖P2‖ + ‖A - (P1 + Q1 * P2 * Q1⁻¹)‖) := mul_le_mul_of_nonneg_left nA hu0.le
  have k3 : u * ‖A - (P1 + Q1 * P2 * Q1⁻¹)‖ ≤ 1 / 16777216 * (u * (‖P1‖ + 60 * ‖P2‖) + 27 * η) :=
    (mul_le_mul_of_nonneg_left eA hu0.le).trans (mul_le_mul_of_nonneg_right hu (by positivity))
  have k4 : 0 ≤ u * ‖V‖ := by positivity
  have k5 : 0 ≤ u * ‖P1‖ := by positivity
  have k6 : 0 ≤ u * ‖P2‖ := by positivity
  have e2 : u * (‖P1‖ + 60 * ‖P2‖) = u * ‖P1‖ + 60 * (u * ‖P2‖) := by ring
  have e3 : u * (3 * ‖P1‖ + 62 * ‖P2‖ + 171 * ‖V‖) = 3 * (u * ‖P1‖) + 62 * (u * ‖P2‖) + 171 * (u * ‖V‖) := by ring
  have e4 : u * (‖P1‖ + ‖P2‖ + ‖A - (P1 + Q1 * P2 * Q1⁻¹)‖) = u * ‖P1‖ + u * ‖P2‖ + u * ‖A - (P1 + Q1 * P2 * Q1⁻¹)‖ := by ring
  have e5 : (24 * u + 6 * (6 * u + 15 * u)) * ‖V‖ = 150 * (u * ‖V‖) := by ring
  have e6 : 9 / 4 * (9 * u) * ‖V‖ = 81 / 4 * (u * ‖V‖) := by ring
  rw [e3]
  rw [e5] at eR
  rw [e2] at eA k3
  rw [e6] at c
  linarith

/-- Transforming by the inverse is transforming back. -/
theorem C120_inverse (f : Fmt) (hf : f = .double ∨ f = .single) (t : Trans Flt) (v : Vec3 Flt) (P Q V : ℍ[ℝ]) (ht : StandsTrans f t P Q)
    (hv : StandsVec f v V) (h1 : NearlyUnit f Q) (hP : ‖P‖ ≤ f.maxVal / 16) (hV : ‖V‖ ≤ f.maxVal / 16) :
    ∃ R, StandsVec f (transVec f (transInverse f t) v) R ∧ ‖R - Q⁻¹ * (V - P) * Q‖ ≤ 1 / 2 ^ f.prec * (54 * ‖P‖ + 60 * ‖V‖) + 54 * 2 ^ f.emin := by
  obtain ⟨hu0, hu, hη0, hη, hM⟩ := real_consts hf
  have n := norm_nonneg V
  have nP := norm_nonneg P
  have hQ := near_ne h1 (h1.le hf)
  have nc : NearlyUnit f (star Q) := by unfold NearlyUnit; rw [norm_star]; exact h1
  obtain ⟨A, sA, eA, -⟩ := C119_rotation f hf (quatConj t.q) (star Q) _ (-P) _ (C118_conjugate f _ Q ht.2) (neg_vec ht.1) nc (nc.le hf) (by rwa [norm_neg])
  rw [star_rotation hQ, norm_neg, show (22 : ℝ) / 2 ^ f.prec + 5 * (6 / 2 ^ f.prec) = 52 * (1 / 2 ^ f.prec) by ring] at eA
  set u := 1 / (2 : ℝ) ^ f.prec with hu_def
  set η := (2 : ℝ) ^ f.emin with hη_def
  have k1 : u * ‖P‖ ≤ 1 / 16777216 * ‖P‖ := mul_le_mul_of_nonneg_right hu nP
  have nA : ‖A‖ ≤ ‖P‖ + ‖A - Q⁻¹ * -P * Q‖ := by
    have := norm_add_le (A - Q⁻¹ * -P * Q) (Q⁻¹ * -P * Q)
    rw [inverse_norm hQ, norm_neg, sub_add_cancel] at this
    linarith
  obtain ⟨R, sR, eR⟩ := C120_vector f hf (transInverse f t) v A (star Q) V ⟨sA, C118_conjugate f _ Q ht.2⟩ hv nc (by linarith) hV
  rw [star_rotation hQ, ← hu_def, ← hη_def] at eR
  refine ⟨R, sR, ?_⟩
  have t1 := norm_add_le (R - (A + Q⁻¹ * V * Q)) (A - Q⁻¹ * -P * Q)
  have e1 : R - (A + Q⁻¹ * V * Q) + (A - Q⁻¹ * -P * Q) = R - Q⁻¹ * (V - P) * Q := by
    rw [mul_sub, sub_mul, mul_neg, neg_mul]; abel
  rw [e1] at t1
  have k2 : u * ‖A‖ ≤ u * (‖P‖ + ‖A - Q⁻¹ * -P * Q‖) := mul_le_mul_of_nonneg_left nA hu0.le
  have k3 : u * ‖A - Q⁻¹ * -P * Q‖ ≤ 1 / 16777216 * (52 * u * ‖P‖ + 26 * η) :=
    (mul_le_mul_of_nonneg_left eA hu0.le).trans (mul_le_mul_of_nonneg_right hu (by positivity))
  have k4 : 0 ≤ u * ‖V‖ := by positivity
  have k5 : 0 ≤ u * ‖P‖ := by positivity
  have e2 : 52 * u * ‖P‖ = 52 * (u * ‖P‖) := by ring
  have e3 : u * (54 * ‖P‖ + 60 * ‖V‖) = 54 * (u * ‖P‖) + 60 * (u * ‖V‖) := by ring
  have e4 : u * (‖P‖ + ‖A - Q⁻¹ * -P * Q‖) = u * ‖P‖ + u * ‖A - Q⁻¹ * -P * Q‖ := by ring
  have e5 : u * (‖A‖ + 60 * ‖V‖) = u * ‖A‖ + 60 * (u * ‖V‖) := by ring
  rw [e3]
  rw [e5] at eR
  rw [e2] at eA k3
  linarith

/-- Transforming by `t1.inv_transform( t2 )` is transforming by the second and back by the first. -/
theorem C120_inverse_product (f : Fmt) (hf : f = .double ∨ f = .single) (t1 t2 : Trans Flt) (v : Vec3 Flt) (P1 Q1 P2 Q2 V : ℍ[ℝ])
    (ht1 : StandsTrans f t1 P1 Q1) (ht2 : StandsTrans f t2 P2 Q2) (hv : StandsVec f v V) (h1 : NearlyUnit f Q1) (h2 : NearlyUnit f Q2)
    (hP : ‖P2 - P1‖ ≤ f.maxVal / 100) (hV : ‖V‖ ≤ f.maxVal / 100) :
    ∃ R, StandsVec f (transVec f (transInvMul f t1 t2) v) R ∧ ‖R - Q1⁻¹ * (P2 + Q2 * V * Q2⁻¹ - P1) * Q1‖ ≤
      1 / 2 ^ f.prec * (62 * ‖P2 - P1‖ + 171 * ‖V‖) + 55 * 2 ^ f.emin := by
  obtain ⟨hu0, hu, hη0, hη, hM⟩ := real_consts hf
  have n := norm_nonneg V
  have n1 := norm_nonneg (P2 - P1)
  have hQ1 := near_ne h1 (h1.le hf)
  have hQ2 := near_ne h2 (h2.le hf)
  have nc : NearlyUnit f (star Q1) := by unfold NearlyUnit; rw [norm_star]; exact h1
  have hc := near_ne nc (nc.le hf)
  obtain ⟨A, sA, eA⟩ := C120_inverse_vector f hf t1 t2.p P1 Q1 P2 ht1 ht2.1 h1 (by linarith)
  rw [show (60 : ℝ) / 2 ^ f.prec = 60 * (1 / 2 ^ f.prec) from (mul_one_div _ _).symm] at eA
  obtain ⟨B, sB, b1, b2⟩ := product_step hf (C118_conjugate f _ Q1 ht1.2) ht2.2 (S := star Q1) (γ := 0) nc ((nc.le hf).trans (by norm_num)) h2 (by simp) (by norm_num)
  rw [show (6 : ℝ) / 2 ^ f.prec = 6 * (1 / 2 ^ f.prec) from (mul_one_div _ _).symm,
    show (15 : ℝ) / 2 ^ f.prec = 15 * (1 / 2 ^ f.prec) from (mul_one_div _ _).symm] at b1
  rw [show (9 : ℝ) / 2 ^ f.prec = 9 * (1 / 2 ^ f.prec) from (mul_one_div _ _).symm, zero_add] at b2
  set u := 1 / (2 : ℝ) ^ f.prec with hu_def
  set η := (2 : ℝ) ^ f.emin with hη_def
  have k1 : u * ‖P2 - P1‖ ≤ 1 / 16777216 * ‖P2 - P1‖ := mul_le_mul_of_nonneg_right hu n1
  have nA : ‖A‖ ≤ ‖P2 - P1‖ + ‖A - Q1⁻¹ * (P2 - P1) * Q1‖ := by
    have := norm_add_le (A - Q1⁻¹ * (P2 - P1) * Q1) (Q1⁻¹ * (P2 - P1) * Q1)
    rw [inverse_norm hQ1, sub_add_cancel] at this
    linarith
  have c := rotation_close (V := V) (by linarith [(abs_le.1 b1).1]) (mul_ne_zero hc hQ2) b2
  obtain ⟨R, sR, eR⟩ := transVec_close hf (t := transInvMul f t1 t2) ⟨sA, sB⟩ hv b1 (by linarith) (by linarith) (by linarith)
  rw [← hu_def, ← hη_def] at eR
  refine ⟨R, sR, ?_⟩
  have t3 := norm_add₃_le (a := R - (A + B * V * B⁻¹)) (b := A - Q1⁻¹ * (P2 - P1) * Q1) (c := B * V * B⁻¹ - star Q1 * Q2 * V * (star Q1 * Q2)⁻¹)
  have e1 : R - (A + B * V * B⁻¹) + (A - Q1⁻¹ * (P2 - P1) * Q1) + (B * V * B⁻¹ - star Q1 * Q2 * V * (star Q1 * Q2)⁻¹) =
      R - Q1⁻¹ * (P2 + Q2 * V * Q2⁻¹ - P1) * Q1 := by
    have : star Q1 * Q2 * V * (star Q1 * Q2)⁻¹ = Q1⁻¹ * (Q2 * V * Q2⁻¹) * Q1 := by
      rw [← star_rotation hQ1, mul_inv_rev]; simp only [mul_assoc]
    rw [this, show P2 + Q2 * V * Q2⁻¹ - P1 = (P2 - P1) + Q2 * V * Q2⁻¹ by abel, mul_add Q1⁻¹ (P2 - P1), add_mul _ _ Q1]; abel
  rw [e1] at t3
  have k2 : u * ‖A‖ ≤ u * (‖P2 - P1‖ + ‖A - Q1⁻¹ * (P2 - P1) * Q1‖) := mul_le_mul_of_nonneg_left nA hu0.le
  have k3 : u * ‖A - Q1⁻¹ * (P2 - P1) * Q1‖ ≤ 1 / 16777216 * (60 * u * ‖P2 - P1‖ + 27 * η) :=
    (mul_le_mul_of_nonneg_left eA hu0.le).trans (mul_le_mul_of_nonneg_right hu (by positivity))
  have k4 : 0 ≤ u * ‖V‖ := by positivity
  have k5 : 0 ≤ u * ‖P2 - P1‖ := by positivity
  have e2 : 60 * u * ‖P2 - P1‖ = 60 * (u * ‖P2 - P1‖) := by ring
  have e3 : u * (62 * ‖P2 - P1‖ + 171 * ‖V‖) = 62 * (u * ‖P2 - P1‖) + 171 * (u * ‖V‖) := by ring
  have e4 : u * (‖P2 - P1‖ + ‖A - Q1⁻¹ * (P2 - P1) * Q1‖) = u * ‖P2 - P1‖ + u * ‖A - Q1⁻¹ * (P2 - P1) * Q1‖ := by ring
  have e5 : (24 * u + 6 * (6 * u + 15 * u)) * ‖V‖ = 150 * (u * ‖V‖) := by ring
  have e6 : 9 / 4 * (9 * u) * ‖V‖ = 81 / 4 * (u * ‖V‖) := by ring
  rw [e3]
  rw [e5] at eR
  rw [e2] at eA k3
  rw [e6] at c
  linarith

/-! A transform that turns the axes into one another and moves by `( 1, 2, 3 )`. -/

theorem turned_stands : StandsTrans .double ⟨oneTwoThree, thirdTurn⟩ (quatOf 0 1 2 3) (quatOf (1 / 2) (1 / 2) (1 / 2) (1 / 2)) :=
  ⟨oneTwoThree_stands, thirdTurn_stands⟩

example : StandsTrans .double ⟨oneTwoThree, thirdTurn⟩ (quatOf 0 1 2 3) (quatOf (1 / 2) (1 / 2) (1 / 2) (1 / 2)) ∧
    StandsVec .double oneTwoThree (quatOf 0 1 2 3) ∧ NearlyUnit .double (quatOf (1 / 2) (1 / 2) (1 / 2) (1 / 2)) ∧
    ‖quatOf 0 1 2 3‖ ≤ Fmt.double.maxVal / 100 ∧ ‖quatOf 0 1 2 3 - quatOf 0 1 2 3‖ ≤ Fmt.double.maxVal / 100 := by
  refine ⟨turned_stands, turned_stands.1, ?_, ?_, ?_⟩
  · rw [NearlyUnit, thirdTurn_unit, sub_self, abs_zero]; positivity
  · have h := norm_sq4 (quatOf 0 1 2 3)
    have hM := (real_consts (f := .double) (.inl rfl)).2.2.2.2
    norm_num at h
    nlinarith [norm_nonneg (quatOf 0 1 2 3)]
  · have hM := (real_consts (f := .double) (.inl rfl)).2.2.2.2
    rw [sub_self, norm_zero]
    linarith

example : transVec .double ⟨oneTwoThree, thirdTurn⟩ oneTwoThree = ⟨.fin false 4, .fin false 3, .fin false 5⟩ ∧
    transInvVec .double ⟨oneTwoThree, thirdTurn⟩ ⟨.fin false 4, .fin false 3, .fin false 5⟩ = oneTwoThree ∧
    transVec .double (transInverse .double ⟨oneTwoThree, thirdTurn⟩) ⟨.fin false 4, .fin false 3, .fin false 5⟩ = oneTwoThree ∧
    transVec .double (transMul .double ⟨oneTwoThree, thirdTurn⟩ ⟨oneTwoThree, thirdTurn⟩) oneTwoThree =
      transVec .double ⟨oneTwoThree, thirdTurn⟩ (transVec .double ⟨oneTwoThree, thirdTurn⟩ oneTwoThree) ∧
    transVec .double (transInvMul .double ⟨oneTwoThree, thirdTurn⟩ ⟨oneTwoThree, thirdTurn⟩) oneTwoThree = oneTwoThree := by decide +kernel

end Flut
