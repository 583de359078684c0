import Verif.Proofs.FloatRotation
import Verif.Props.FloatQuatNormalize

/-! # Property theorems: products of quaternions and rotations in floating-point arithmetic (C118, C119)

`ℍ[ℝ]` are Hamilton's quaternions of Mathlib; their norm is the length. A rotation is `V ↦ Q * V * Q⁻¹`. -/

namespace Flut

open Spec FloatMath Quaternion

/-! ## C118: products -/

/-- The product of two quaternions is right to nine units of the product of their lengths, and the smallest numbers. -/
theorem C118_product (f : Fmt) (hf : f = .double ∨ f = .single) (q1 q2 : Quat Flt) (Q1 Q2 : ℍ[ℝ]) (h1 : StandsQuat f q1 Q1)
    (h2 : StandsQuat f q2 Q2) (h : ‖Q1‖ * ‖Q2‖ ≤ f.maxVal / 2) :
    ∃ P, StandsQuat f (quatMul f q1 q2) P ∧ ‖P - Q1 * Q2‖ ≤ 9 / 2 ^ f.prec * (‖Q1‖ * ‖Q2‖) + 8 * 2 ^ f.emin := by
  obtain ⟨P, hP, e⟩ := quatMul_close hf h1 h2 h
  refine ⟨P, hP, e.trans ?_⟩
  have : 0 ≤ ‖Q1‖ * ‖Q2‖ / 2 ^ f.prec := by positivity
  have e1 : 9 / 2 ^ f.prec * (‖Q1‖ * ‖Q2‖) = 9 * (‖Q1‖ * ‖Q2‖ / 2 ^ f.prec) := by ring
  rw [e1, mul_div_assoc]
  linarith

/-- The conjugate is exact. -/
theorem C118_conjugate (f : Fmt) (q : Quat Flt) (Q : ℍ[ℝ]) (h : StandsQuat f q Q) : StandsQuat f (quatConj q) (star Q) := by
  obtain ⟨⟨d, sw, ew⟩, ⟨a, sx, ex⟩, ⟨b, sy, ey⟩, ⟨c, sz, ez⟩⟩ := h
  exact ⟨⟨d, sw, by simp [ew]⟩, ⟨-a, neg_stands sx, by simp [ex]⟩, ⟨-b, neg_stands sy, by simp [ey]⟩, ⟨-c, neg_stands sz, by simp [ez]⟩⟩

theorem identity_stands {f : Fmt} (hf : f = .double ∨ f = .single) : StandsQuat f quatIdentity 1 :=
  ⟨⟨1, one_stands hf, by simp⟩, ⟨0, zero_stands f hf false, by simp⟩, ⟨0, zero_stands f hf false, by simp⟩, ⟨0, zero_stands f hf false, by simp⟩⟩

theorem zero_mul_real {f : Fmt} (hf : f = .double ∨ f = .single) {z x : Flt} {r : ℝ} (hz : StandsReal f z 0) (h : StandsReal f x r) :
    StandsReal f (f.mul z x) 0 := by
  obtain ⟨a, s, rfl⟩ := h
  obtain ⟨c, sz, hc⟩ := hz
  have hc : c = 0 := by exact_mod_cast hc.symm
  subst hc
  refine ⟨0, ?_, by simp⟩
  have := mul_stands hf sz s (by rw [zero_mul, abs_zero]; exact (maxVal_pos hf).le)
  rwa [zero_mul, Fmt.srnd_zero] at this

theorem one_mul_real {f : Fmt} (hf : f = .double ∨ f = .single) {x : Flt} {r : ℝ} (h : StandsReal f x r) :
    StandsReal f (f.mul (.fin false 1) x) r := by
  obtain ⟨a, s, rfl⟩ := h
  refine ⟨a, ?_, rfl⟩
  have := mul_stands hf (one_stands hf) s (by rw [one_mul]; exact s.abs_le)
  rwa [one_mul, Fmt.srnd_self (prec_pos hf) s.binary] at this

theorem add_zero_real {f : Fmt} (hf : f = .double ∨ f = .single) {x z : Flt} {r : ℝ} (h : StandsReal f x r) (hz : StandsReal f z 0) :
    StandsReal f (f.add x z) r ∧ StandsReal f (f.add z x) r ∧ StandsReal f (f.sub x z) r := by
  obtain ⟨a, s, rfl⟩ := h
  obtain ⟨c, sz, hc⟩ := hz
  have hc : c = 0 := by exact_mod_cast hc.symm
  subst hc
  refine ⟨⟨a, ?_, rfl⟩, ⟨a, ?_, rfl⟩, ⟨a, ?_, rfl⟩⟩
  · have := add_stands hf s sz (by rw [add_zero]; exact s.abs_le)
    rwa [add_zero, Fmt.srnd_self (prec_pos hf) s.binary] at this
  · have := add_stands hf sz s (by rw [zero_add]; exact s.abs_le)
    rwa [zero_add, Fmt.srnd_self (prec_pos hf) s.binary] at this
  · have := sub_stands hf s sz (by rw [sub_zero]; exact s.abs_le)
    rwa [sub_zero, Fmt.srnd_self (prec_pos hf) s.binary] at this

/-- Products with the identity are exact. -/
theorem C118_identity (f : Fmt) (hf : f = .double ∨ f = .single) (q : Quat Flt) (Q : ℍ[ℝ]) (h : StandsQuat f q Q) :
    StandsQuat f (quatMul f quatIdentity q) Q ∧ StandsQuat f (quatMul f q quatIdentity) Q := by
  obtain ⟨hw, hx, hy, hz⟩ := h
  have z : StandsReal f (.fin false 0) 0 := ⟨0, zero_stands f hf false, by simp⟩
  have M0 : ∀ {x : Flt} {r : ℝ}, StandsReal f x r → StandsReal f (f.mul (.fin false 0) x) 0 := fun h => zero_mul_real hf z h
  have M0' : ∀ {x : Flt} {r : ℝ}, StandsReal f x r → StandsReal f (f.mul x (.fin false 0)) 0 := fun h => by
    rw [f.mul_comm]; exact zero_mul_real hf z h
  have M1 : ∀ {x : Flt} {r : ℝ}, StandsReal f x r → StandsReal f (f.mul (.fin false 1) x) r := fun h => one_mul_real hf h
  have M1' : ∀ {x : Flt} {r : ℝ}, StandsReal f x r → StandsReal f (f.mul x (.fin false 1)) r := fun h => by
    rw [f.mul_comm]; exact one_mul_real hf h
  have A := fun {x z : Flt} {r : ℝ} (h : StandsReal f x r) (hz : StandsReal f z 0) => (add_zero_real hf h hz).1
  have A' := fun {x z : Flt} {r : ℝ} (h : StandsReal f x r) (hz : StandsReal f z 0) => (add_zero_real hf h hz).2.1
  have B := fun {x z : Flt} {r : ℝ} (h : StandsReal f x r) (hz : StandsReal f z 0) => (add_zero_real hf h hz).2.2
  exact ⟨⟨B (B (B (M1 hw) (M0 hx)) (M0 hy)) (M0 hz), B (A (A (M1 hx) (M0 hw)) (M0 hz)) (M0 hy), B (A (A (M1 hy) (M0 hw)) (M0 hx)) (M0 hz),
      B (A (A (M1 hz) (M0 hw)) (M0 hy)) (M0 hx)⟩,
    ⟨B (B (B (M1' hw) (M0' hx)) (M0' hy)) (M0' hz), B (A (A' (M1' hx) (M0' hw)) (M0' hy)) (M0' hz), B (A (A' (M1' hy) (M0' hw)) (M0' hz)) (M0' hx),
      B (A (A' (M1' hz) (M0' hw)) (M0' hx)) (M0' hy)⟩⟩

/-- A quaternion that stands for a length of one, to six units. -/
def NearlyUnit (f : Fmt) (Q : ℍ[ℝ]) : Prop := |‖Q‖ - 1| ≤ 6 / 2 ^ f.prec

theorem prec_le {f : Fmt} (hf : f = .double ∨ f = .single) : 1000000 * (2 : ℝ) ^ f.emin ≤ 1 / 2 ^ f.prec := by
  have : 1000000 * (2 : ℚ) ^ f.emin ≤ 1 / 2 ^ f.prec := by rcases hf with rfl | rfl <;> decide +kernel
  have : ((1000000 * (2 : ℚ) ^ f.emin : ℚ) : ℝ) ≤ ((1 / 2 ^ f.prec : ℚ) : ℝ) := by exact_mod_cast this
  push_cast at this
  exact this

/-- One more factor: what happens to the length and to the distance from the exact product. -/
theorem product_step {f : Fmt} (hf : f = .double ∨ f = .single) {q1 q2 : Quat Flt} {Q1 Q2 S : ℍ[ℝ]} (h1 : StandsQuat f q1 Q1)
    (h2 : StandsQuat f q2 Q2) {δ : ℝ} (hδ : |‖Q1‖ - 1| ≤ δ) (hδ1 : δ ≤ 1 / 100) (hQ : NearlyUnit f Q2) {γ : ℝ} (hγ : ‖Q1 - S‖ ≤ γ) (hγ1 : γ ≤ 1 / 100) :
    ∃ P, StandsQuat f (quatMul f q1 q2) P ∧ |‖P‖ - 1| ≤ δ + 15 / 2 ^ f.prec ∧ ‖P - S * Q2‖ ≤ γ + 9 / 2 ^ f.prec := by
  obtain ⟨hu0, hu, hη0, hη, hM⟩ := real_consts hf
  have hue := prec_le hf
  unfold NearlyUnit at hQ
  rw [← mul_one_div] at hQ
  rw [← mul_one_div 15, ← mul_one_div 9]
  obtain ⟨a1, a2⟩ := abs_le.1 hδ
  obtain ⟨b1, b2⟩ := abs_le.1 hQ
  have n1 := norm_nonneg Q1
  have n2 := norm_nonneg Q2
  have hδ0 : 0 ≤ δ := (abs_nonneg _).trans hδ
  have hγ0 : 0 ≤ γ := (norm_nonneg _).trans hγ
  have m1 : ‖Q1‖ * ‖Q2‖ ≤ (1 + δ) * (1 + 6 * (1 / 2 ^ f.prec)) := mul_le_mul (by linarith) (by linarith) n2 (by linarith)
  have m2 : (1 - δ) * (1 - 6 * (1 / 2 ^ f.prec)) ≤ ‖Q1‖ * ‖Q2‖ := mul_le_mul (by linarith) (by linarith) (by linarith) n1
  obtain ⟨P, hP, e⟩ := quatMul_close hf h1 h2 (by
    have : (1 + δ) * (1 + 6 * (1 / 2 ^ f.prec)) ≤ 2 * 2 := mul_le_mul (by linarith) (by linarith) (by linarith) (by norm_num)
    linarith)
  rw [mul_div_assoc, div_eq_mul_one_div _ ((2 : ℝ) ^ f.prec)] at e
  generalize 1 / (2 : ℝ) ^ f.prec = u at *
  generalize (2 : ℝ) ^ f.emin = η at *
  have δu : δ * u ≤ 1 / 100 * u := mul_le_mul_of_nonneg_right hδ1 hu0.le
  have δu0 : 0 ≤ δ * u := by positivity
  have uu : u * u ≤ 1 / 16777216 * u := mul_le_mul_of_nonneg_right hu hu0.le
  have m3 : ‖Q1‖ * ‖Q2‖ ≤ 102 / 100 := by nlinarith
  have m4 : ‖Q1‖ * ‖Q2‖ * u ≤ 102 / 100 * u := mul_le_mul_of_nonneg_right m3 hu0.le
  have e' : ‖P - Q1 * Q2‖ ≤ 82 / 10 * u := by linarith
  refine ⟨P, hP, ?_, ?_⟩
  · have t1 : |‖P‖ - ‖Q1‖ * ‖Q2‖| ≤ ‖P - Q1 * Q2‖ := by rw [← norm_mul]; exact abs_norm_sub_norm_le _ _
    obtain ⟨t2, t3⟩ := abs_le.1 t1
    rw [abs_le]
    constructor <;> nlinarith
  · have t := norm_add_le (P - Q1 * Q2) ((Q1 - S) * Q2)
    have e1 : P - Q1 * Q2 + (Q1 - S) * Q2 = P - S * Q2 := by rw [sub_mul]; abel
    rw [e1, norm_mul] at t
    have : ‖Q1 - S‖ * ‖Q2‖ ≤ γ * (1 + 6 * u) := mul_le_mul hγ (by linarith) n2 hγ0
    have : γ * u ≤ 1 / 100 * u := mul_le_mul_of_nonneg_right hγ1 hu0.le
    nlinarith

/-- Products of many quaternions of length one: after `n` factors the length is right to `15 n` units, and the product to `9 n`. -/
theorem C118_sequence (f : Fmt) (hf : f = .double ∨ f = .single) (qs : List (Quat Flt)) (Qs : List ℍ[ℝ]) (h : List.Forall₂ (StandsQuat f) qs Qs)
    (hu : ∀ Q ∈ Qs, NearlyUnit f Q) (hn : 15 * qs.length / (2 : ℝ) ^ f.prec ≤ 1 / 100) :
    ∃ P, StandsQuat f (qs.foldl (quatMul f) quatIdentity) P ∧ |‖P‖ - 1| ≤ 15 * qs.length / 2 ^ f.prec ∧
      ‖P - Qs.prod‖ ≤ 9 * qs.length / 2 ^ f.prec := by
  have key : ∀ (qs : List (Quat Flt)) (Qs : List ℍ[ℝ]), List.Forall₂ (StandsQuat f) qs Qs → (∀ Q ∈ Qs, NearlyUnit f Q) →
      ∀ (q : Quat Flt) (Q S : ℍ[ℝ]) (k : ℕ), StandsQuat f q Q → |‖Q‖ - 1| ≤ 15 * k / 2 ^ f.prec → ‖Q - S‖ ≤ 9 * k / 2 ^ f.prec →
      15 * (k + qs.length) / (2 : ℝ) ^ f.prec ≤ 1 / 100 →
      ∃ P, StandsQuat f (qs.foldl (quatMul f) q) P ∧ |‖P‖ - 1| ≤ 15 * (k + qs.length) / 2 ^ f.prec ∧
        ‖P - S * Qs.prod‖ ≤ 9 * (k + qs.length) / 2 ^ f.prec := by
    intro qs Qs h
    induction h with
    | nil =>
      intro _ q Q S k hq h1 h2 _
      exact ⟨Q, hq, by simpa using h1, by simpa using h2⟩
    | @cons q' Q' qs Qs hq' _ ih =>
      intro hu q Q S k hq h1 h2 hn
      have hp : (0 : ℝ) < 2 ^ f.prec := by positivity
      rw [List.length_cons, Nat.cast_add, Nat.cast_one] at hn ⊢
      have l0 : (0 : ℝ) ≤ qs.length := Nat.cast_nonneg _
      have k0 : (0 : ℝ) ≤ k := Nat.cast_nonneg _
      have c1 : 15 * k / (2 : ℝ) ^ f.prec ≤ 1 / 100 := le_trans (by gcongr; linarith) hn
      have c2 : 9 * k / (2 : ℝ) ^ f.prec ≤ 1 / 100 := le_trans (by gcongr; norm_num) c1
      obtain ⟨P, hP, p1, p2⟩ := product_step hf hq hq' h1 c1 (hu _ List.mem_cons_self) h2 c2
      obtain ⟨R, hR, r1, r2⟩ := ih (fun Q h => hu Q (List.mem_cons_of_mem _ h)) _ P (S * Q') (k + 1) hP
        (p1.trans (le_of_eq (by push_cast; ring))) (p2.trans (le_of_eq (by push_cast; ring)))
        (le_trans (le_of_eq (by push_cast; ring)) hn)
      refine ⟨R, hR, r1.trans (le_of_eq (by push_cast; ring)), ?_⟩
      rw [List.prod_cons, ← mul_assoc]
      exact r2.trans (le_of_eq (by push_cast; ring))
  obtain ⟨P, hP, a, b⟩ := key qs Qs h hu _ 1 1 0 (identity_stands hf) (by simp) (by simp) (by simpa using hn)
  exact ⟨P, hP, by simpa using a, by simpa using b⟩

/-- `normalize` gives a quaternion of length one, close to the quotient of the quaternion and its length. -/
theorem C118_normalize (f : Fmt) (hf : f = .double ∨ f = .single) (q : Quat Flt) (Q : ℍ[ℝ]) (hq : StandsQuat f q Q)
    (h : 2 * (2 ^ (1 - (f.prec : Int))) ^ 2 ≤ ‖Q‖ ^ 2) (h' : ‖Q‖ ^ 2 ≤ f.maxVal / 2) :
    ∃ P, StandsQuat f (quatNormalize f q) P ∧ NearlyUnit f P ∧ ‖P - ‖Q‖⁻¹ • Q‖ ≤ 7 / 2 ^ f.prec := by
  obtain ⟨⟨d, sw, ew⟩, ⟨a, sx, ex⟩, ⟨b, sy, ey⟩, ⟨c, sz, ez⟩⟩ := hq
  have N := norm_sq4 Q
  rw [ew, ex, ey, ez] at N
  have hq1 : d ^ 2 + a ^ 2 + b ^ 2 + c ^ 2 ≤ f.maxVal / 2 := by
    have : ((d ^ 2 + a ^ 2 + b ^ 2 + c ^ 2 : ℚ) : ℝ) ≤ ((f.maxVal / 2 : ℚ) : ℝ) := by push_cast; linarith
    exact_mod_cast this
  have hq2 : 2 * (2 ^ (1 - (f.prec : Int))) ^ 2 ≤ d ^ 2 + a ^ 2 + b ^ 2 + c ^ 2 := by
    have : ((2 * (2 ^ (1 - (f.prec : Int))) ^ 2 : ℚ) : ℝ) ≤ ((d ^ 2 + a ^ 2 + b ^ 2 + c ^ 2 : ℚ) : ℝ) := by push_cast; linarith
    exact_mod_cast this
  obtain ⟨w, x, y, z, tw, tx, ty, tz, ⟨e1, e2, e3, e4⟩, eN⟩ := (C112_quat_normalize f hf q d a b c sw sx sy sz hq1).2 hq2
  obtain ⟨hu0, hu, hη0, hη, hM⟩ := real_consts hf
  have hue := prec_le hf
  have hL : √((d : ℝ) ^ 2 + (a : ℝ) ^ 2 + (b : ℝ) ^ 2 + (c : ℝ) ^ 2) = ‖Q‖ := by rw [← N, Real.sqrt_sq (norm_nonneg _)]
  rw [hL] at e1 e2 e3 e4
  have hQ0 : 0 < ‖Q‖ := by
    by_contra hc
    have h0 : ‖Q‖ = 0 := le_antisymm (not_lt.1 hc) (norm_nonneg _)
    rw [h0] at h
    have : (0 : ℝ) < 2 * (2 ^ (1 - (f.prec : Int))) ^ 2 := by positivity
    norm_num at h
    linarith
  refine ⟨quatOf w x y z, ⟨⟨w, tw, rfl⟩, ⟨x, tx, rfl⟩, ⟨y, ty, rfl⟩, ⟨z, tz, rfl⟩⟩, ?_, ?_⟩
  · have eN' : ((|w ^ 2 + x ^ 2 + y ^ 2 + z ^ 2 - 1| : ℚ) : ℝ) ≤ ((11 / 2 ^ f.prec : ℚ) : ℝ) := by exact_mod_cast eN
    push_cast at eN'
    have N' := norm_sq4 (quatOf w x y z)
    simp only [quatOf_re, quatOf_imI, quatOf_imJ, quatOf_imK] at N'
    rw [← N', ← mul_one_div] at eN'
    unfold NearlyUnit
    rw [← mul_one_div]
    obtain ⟨g1, g2⟩ := abs_le.1 eN'
    have n0 := norm_nonneg (quatOf w x y z)
    rw [abs_le]
    constructor <;> nlinarith
  · have rel : ∀ {r t : ℝ}, |r - t / ‖Q‖| ≤ 6 / 2 ^ f.prec * (|t| / ‖Q‖) + 2 ^ f.emin →
        |r - ‖Q‖⁻¹ * t| ≤ 6 * (1 / 2 ^ f.prec) * |‖Q‖⁻¹ * t| + 2 ^ f.emin := by
      intro r t ht
      rw [abs_mul, abs_of_pos (inv_pos.2 hQ0), ← div_eq_inv_mul, ← div_eq_inv_mul, mul_one_div]
      exact ht
    have n1 : ‖‖Q‖⁻¹ • Q‖ = 1 := by rw [norm_smul, norm_inv, norm_norm, inv_mul_cancel₀ hQ0.ne']
    have := norm_rel4 (V := quatOf w x y z - ‖Q‖⁻¹ • Q) (X := ‖Q‖⁻¹ • Q) (u := 6 * (1 / 2 ^ f.prec)) (h := 2 ^ f.emin) (by positivity) hη0.le
      (by simpa [ew] using rel e1) (by simpa [ex] using rel e2) (by simpa [ey] using rel e3) (by simpa [ez] using rel e4)
    rw [n1] at this
    rw [← mul_one_div]
    linarith

/-! ## C119: rotations -/

/-- Rotations by quaternions that are close to each other. -/
theorem rotation_close {P S V : ℍ[ℝ]} {γ : ℝ} (hP : 9 / 10 ≤ ‖P‖) (hS : S ≠ 0) (h : ‖P - S‖ ≤ γ) :
    ‖P * V * P⁻¹ - S * V * S⁻¹‖ ≤ 9 / 4 * γ * ‖V‖ := by
  have hP0 : P ≠ 0 := by rintro rfl; norm_num at hP
  have hS0 := norm_pos_iff.2 hS
  have e : P * V * P⁻¹ - S * V * S⁻¹ = (P - S) * V * P⁻¹ - S * V * S⁻¹ * (P - S) * P⁻¹ := by
    have : S * V * S⁻¹ * (P - S) * P⁻¹ = S * V * S⁻¹ - S * V * P⁻¹ := by
      rw [mul_sub, sub_mul, mul_assoc _ P, mul_inv_cancel₀ hP0, mul_one, mul_assoc _ S⁻¹ S, inv_mul_cancel₀ hS, mul_one]
    rw [this, sub_mul, sub_mul]; abel
  have n := norm_nonneg V
  have g0 : 0 ≤ γ := (norm_nonneg _).trans h
  have i1 : ‖P‖⁻¹ ≤ 10 / 9 := by
    rw [inv_le_comm₀ (by linarith) (by norm_num)]
    linarith
  rw [e]
  refine (norm_sub_le _ _).trans ?_
  simp only [norm_mul, norm_inv]
  have c1 : ‖P - S‖ * ‖V‖ * ‖P‖⁻¹ ≤ γ * ‖V‖ * (10 / 9) := by gcongr
  have c2 : ‖S‖ * ‖V‖ * ‖S‖⁻¹ * ‖P - S‖ * ‖P‖⁻¹ = ‖P - S‖ * ‖V‖ * ‖P‖⁻¹ := by field_simp
  rw [c2]
  have : 0 ≤ γ * ‖V‖ := by positivity
  linarith

theorem rotation_norm {Q V : ℍ[ℝ]} (h : Q ≠ 0) : ‖Q * V * Q⁻¹‖ = ‖V‖ := by
  have := norm_pos_iff.2 h
  rw [norm_mul, norm_mul, norm_inv]
  field_simp

/-- Rotating a vector by a quaternion of length one, to `δ`: the result is the vector rotated, and has its length, to twenty-two units of
its length, five times `δ`, and the smallest numbers. -/
theorem C119_rotation (f : Fmt) (hf : f = .double ∨ f = .single) (q : Quat Flt) (Q : ℍ[ℝ]) (v : Vec3 Flt) (V : ℍ[ℝ]) (δ : ℝ) (hq : StandsQuat f q Q)
    (hv : StandsVec f v V) (h1 : |‖Q‖ - 1| ≤ δ) (hδ : δ ≤ 1 / 1000) (h : ‖V‖ ≤ f.maxVal / 16) :
    ∃ R, StandsVec f (rotate f q v) R ∧ ‖R - Q * V * Q⁻¹‖ ≤ (22 / 2 ^ f.prec + 5 * δ) * ‖V‖ + 26 * 2 ^ f.emin ∧
      |‖R‖ - ‖V‖| ≤ (22 / 2 ^ f.prec + 5 * δ) * ‖V‖ + 26 * 2 ^ f.emin := by
  obtain ⟨R, sR, eR⟩ := rotate_close hf hq hv (h1.trans hδ) h
  have n := norm_nonneg V
  obtain ⟨a1, a2⟩ := abs_le.1 h1
  have hQ0 : 0 < ‖Q‖ := by linarith
  have hQ : Q ≠ 0 := norm_pos_iff.1 hQ0
  have e2 : rotQ Q V - Q * V * Q⁻¹ = (‖Q‖ ^ 2 - 1) • (Q * V * Q⁻¹ - V) := by
    have : Q * V * star Q = ‖Q‖ ^ 2 • (Q * V * Q⁻¹) := by
      rw [← mul_smul_comm]
      congr 1
      rw [show Q⁻¹ = (normSq Q)⁻¹ • star Q from rfl, smul_smul, normSq_eq_norm_mul_self, pow_two, mul_inv_cancel₀ (by positivity), one_smul]
    rw [rotQ_eq Q V hv.1, this]
    module
  have b1 : |‖Q‖ ^ 2 - 1| ≤ 2001 / 1000 * δ := by
    have δ0 : 0 ≤ δ := (abs_nonneg _).trans h1
    rw [abs_le]; constructor <;> nlinarith
  have b2 : ‖Q * V * Q⁻¹ - V‖ ≤ 2 * ‖V‖ := by
    refine (norm_sub_le _ _).trans ?_
    rw [rotation_norm hQ]; linarith
  have b3 : ‖rotQ Q V - Q * V * Q⁻¹‖ ≤ 5 * δ * ‖V‖ := by
    rw [e2, norm_smul, Real.norm_eq_abs]
    have δ0 : 0 ≤ δ := (abs_nonneg _).trans h1
    have : |‖Q‖ ^ 2 - 1| * ‖Q * V * Q⁻¹ - V‖ ≤ 2001 / 1000 * δ * (2 * ‖V‖) := mul_le_mul b1 b2 (norm_nonneg _) (by positivity)
    have : 0 ≤ δ * ‖V‖ := by positivity
    linarith
  have b4 : ‖R - Q * V * Q⁻¹‖ ≤ (22 / 2 ^ f.prec + 5 * δ) * ‖V‖ + 26 * 2 ^ f.emin := by
    have := norm_add_le (R - rotQ Q V) (rotQ Q V - Q * V * Q⁻¹)
    rw [sub_add_sub_cancel] at this
    linarith
  refine ⟨R, sR, b4, ?_⟩
  have := abs_norm_sub_norm_le R (Q * V * Q⁻¹)
  rw [rotation_norm hQ] at this
  exact this.trans b4

/-- Rotating by the identity changes nothing, however large the vector is. -/
theorem C119_identity (f : Fmt) (hf : f = .double ∨ f = .single) (v : Vec3 Flt) (V : ℍ[ℝ]) (hv : StandsVec f v V) :
    StandsVec f (rotate f quatIdentity v) V := by
  obtain ⟨h0, hx, hy, hz⟩ := hv
  have z : StandsReal f (.fin false 0) 0 := ⟨0, zero_stands f hf false, by simp⟩
  have M0 : ∀ {x : Flt} {r : ℝ}, StandsReal f x r → StandsReal f (f.mul (.fin false 0) x) 0 := fun h => zero_mul_real hf z h
  have A := fun {x z : Flt} {r : ℝ} (h : StandsReal f x r) (hz : StandsReal f z 0) => (add_zero_real hf h hz).1
  have B := fun {x z : Flt} {r : ℝ} (h : StandsReal f x r) (hz : StandsReal f z 0) => (add_zero_real hf h hz).2.2
  have c : ∀ {w : Vec3 Flt} {W : ℍ[ℝ]}, StandsVec f w W → StandsVec f (crossProduct f ⟨.fin false 0, .fin false 0, .fin false 0⟩ w) 0 :=
    fun ⟨_, a, b, c⟩ => ⟨rfl, B (M0 c) (M0 b), B (M0 a) (M0 c), B (M0 b) (M0 a)⟩
  have c1 := c ⟨h0, hx, hy, hz⟩
  have c2 := c c1
  have k : ∀ {w : Vec3 Flt} {s : Flt} {r : ℝ}, StandsVec f w 0 → StandsReal f s r → StandsVec f (scale f w s) 0 :=
    fun ⟨_, a, b, c⟩ hs => ⟨rfl, zero_mul_real hf a hs, zero_mul_real hf b hs, zero_mul_real hf c hs⟩
  have s2 : StandsReal f (.fin false 2) 2 :=
    ⟨2, ⟨⟨by norm_num, by linarith [(fmt_consts hf).2.2.2, (by norm_num : (2 : ℚ) ≤ 2 ^ 100)], by simpa using pow_binary hf 1⟩, rfl⟩, by simp⟩
  have s2w : StandsReal f (f.mul (.fin false 2) (.fin false 1)) 2 := by
    rw [f.mul_comm]; exact one_mul_real hf s2
  have d1 := k c1 s2w
  have d2 := k c2 s2
  exact ⟨h0, A (A hx d1.2.1) d2.2.1, A (A hy d1.2.2.1) d2.2.2.1, A (A hz d1.2.2.2) d2.2.2.2⟩

theorem NearlyUnit.le {f : Fmt} (hf : f = .double ∨ f = .single) {Q : ℍ[ℝ]} (h : NearlyUnit f Q) : 6 / (2 : ℝ) ^ f.prec ≤ 1 / 1000 := by
  obtain ⟨hu0, hu, -⟩ := real_consts hf
  rw [← mul_one_div]
  linarith

/-- Rotating by the quaternion that `normalize` makes gives the rotation of the quaternion that was normalised, to seventy units. -/
theorem C119_normalize (f : Fmt) (hf : f = .double ∨ f = .single) (q : Quat Flt) (Q : ℍ[ℝ]) (v : Vec3 Flt) (V : ℍ[ℝ]) (hq : StandsQuat f q Q)
    (hv : StandsVec f v V) (h1 : 2 * (2 ^ (1 - (f.prec : Int))) ^ 2 ≤ ‖Q‖ ^ 2) (h2 : ‖Q‖ ^ 2 ≤ f.maxVal / 2) (h : ‖V‖ ≤ f.maxVal / 16) :
    ∃ R, StandsVec f (rotate f (quatNormalize f q) v) R ∧ ‖R - Q * V * Q⁻¹‖ ≤ 70 / 2 ^ f.prec * ‖V‖ + 26 * 2 ^ f.emin ∧
      |‖R‖ - ‖V‖| ≤ 52 / 2 ^ f.prec * ‖V‖ + 26 * 2 ^ f.emin := by
  obtain ⟨P, hP, nP, eP⟩ := C118_normalize f hf q Q hq h1 h2
  obtain ⟨R, hR, e1, e2⟩ := C119_rotation f hf _ P v V _ hP hv nP (nP.le hf) h
  have hQ0 : ‖Q‖ ≠ 0 := by
    intro h0
    rw [h0] at h1
    have : (0 : ℝ) < 2 * (2 ^ (1 - (f.prec : Int))) ^ 2 := by positivity
    norm_num at h1
    linarith
  have hQ : Q ≠ 0 := fun h0 => hQ0 (by rw [h0, norm_zero])
  have hS : ‖Q‖⁻¹ • Q ≠ 0 := smul_ne_zero (inv_ne_zero hQ0) hQ
  have eS : (‖Q‖⁻¹ • Q) * V * (‖Q‖⁻¹ • Q)⁻¹ = Q * V * Q⁻¹ := by
    rw [smul_inv₀, inv_inv, smul_mul_assoc, smul_mul_smul_comm, inv_mul_cancel₀ hQ0, one_smul]
  have l := nP.le hf
  have := abs_le.1 nP
  have c := rotation_close (V := V) (by linarith) hS eP
  rw [eS] at c
  have n := norm_nonneg V
  have u0 : 0 ≤ 1 / (2 : ℝ) ^ f.prec * ‖V‖ := by positivity
  have g : ∀ k : ℝ, k / (2 : ℝ) ^ f.prec = k * (1 / 2 ^ f.prec) := fun k => (mul_one_div _ _).symm
  refine ⟨R, hR, ?_, e2.trans (le_of_eq (by ring))⟩
  have t := norm_add_le (R - P * V * P⁻¹) (P * V * P⁻¹ - Q * V * Q⁻¹)
  rw [sub_add_sub_cancel] at t
  rw [g 22, g 6] at e1
  rw [g 7] at c
  rw [g 70]
  linarith

/-- Rotating by the computed product of `n` quaternions of length one gives the rotation of the exact product, to `22 + 96 n` units. -/
theorem C119_product (f : Fmt) (hf : f = .double ∨ f = .single) (qs : List (Quat Flt)) (Qs : List ℍ[ℝ]) (v : Vec3 Flt) (V : ℍ[ℝ])
    (hq : List.Forall₂ (StandsQuat f) qs Qs) (hv : StandsVec f v V) (hu : ∀ Q ∈ Qs, NearlyUnit f Q)
    (hn : 15 * qs.length / (2 : ℝ) ^ f.prec ≤ 1 / 1000) (h : ‖V‖ ≤ f.maxVal / 16) :
    ∃ R, StandsVec f (rotate f (qs.foldl (quatMul f) quatIdentity) v) R ∧
      ‖R - Qs.prod * V * Qs.prod⁻¹‖ ≤ (22 + 96 * qs.length) / 2 ^ f.prec * ‖V‖ + 26 * 2 ^ f.emin := by
  obtain ⟨P, hP, p1, p2⟩ := C118_sequence f hf qs Qs hq hu (hn.trans (by norm_num))
  obtain ⟨R, hR, e1, -⟩ := C119_rotation f hf _ P v V _ hP hv p1 hn h
  have hS : Qs.prod ≠ 0 := by
    rw [Ne, List.prod_eq_zero_iff]
    intro h0
    have h1 := hu _ h0
    have h2 := h1.le hf
    have := abs_le.1 h1
    rw [norm_zero] at this
    linarith
  have := abs_le.1 p1
  have c := rotation_close (V := V) (by linarith) hS p2
  have n := norm_nonneg V
  have u0 : 0 ≤ qs.length / (2 : ℝ) ^ f.prec * ‖V‖ := by positivity
  refine ⟨R, hR, ?_⟩
  have t := norm_add_le (R - P * V * P⁻¹) (P * V * P⁻¹ - Qs.prod * V * Qs.prod⁻¹)
  rw [sub_add_sub_cancel] at t
  have g1 : (22 / 2 ^ f.prec + 5 * (15 * qs.length / 2 ^ f.prec)) * ‖V‖ = 22 / 2 ^ f.prec * ‖V‖ + 75 * (qs.length / 2 ^ f.prec * ‖V‖) := by ring
  have g2 : 9 / 4 * (9 * qs.length / 2 ^ f.prec) * ‖V‖ = 81 / 4 * (qs.length / 2 ^ f.prec * ‖V‖) := by ring
  have g3 : (22 + 96 * qs.length) / 2 ^ f.prec * ‖V‖ = 22 / 2 ^ f.prec * ‖V‖ + 96 * (qs.length / 2 ^ f.prec * ‖V‖) := by ring
  rw [g1] at e1
  rw [g2] at c
  rw [g3]
  linarith

/-- Rotating by one quaternion after the other: after `n` rotations the vector is right to `53 n` units of its length. -/
theorem C119_sequence (f : Fmt) (hf : f = .double ∨ f = .single) (qs : List (Quat Flt)) (Qs : List ℍ[ℝ]) (v : Vec3 Flt) (V : ℍ[ℝ])
    (hq : List.Forall₂ (StandsQuat f) qs Qs) (hv : StandsVec f v V) (hu : ∀ Q ∈ Qs, NearlyUnit f Q)
    (hn : 53 * qs.length / (2 : ℝ) ^ f.prec ≤ 1 / 100) (h : ‖V‖ ≤ f.maxVal / 32) :
    ∃ R, StandsVec f (qs.foldr (rotate f) v) R ∧
      ‖R - Qs.prod * V * Qs.prod⁻¹‖ ≤ 53 * qs.length / 2 ^ f.prec * ‖V‖ + 27 * qs.length * 2 ^ f.emin ∧
      |‖R‖ - ‖V‖| ≤ 53 * qs.length / 2 ^ f.prec * ‖V‖ + 27 * qs.length * 2 ^ f.emin := by
  have hne : ∀ Q ∈ Qs, Q ≠ 0 := fun Q h0 h1 => by
    have h2 := hu _ h0
    have h3 := h2.le hf
    have := abs_le.1 h2
    rw [h1, norm_zero] at this
    linarith
  have key : ∃ R, StandsVec f (qs.foldr (rotate f) v) R ∧
      ‖R - Qs.prod * V * Qs.prod⁻¹‖ ≤ 53 * qs.length / 2 ^ f.prec * ‖V‖ + 27 * qs.length * 2 ^ f.emin := by
    induction hq with
    | nil => exact ⟨V, hv, by simp⟩
    | @cons q Q qs Qs hq' hqs ih =>
      obtain ⟨hu0, hu1, hη0, hη, hM⟩ := real_consts hf
      have l0 : (0 : ℝ) ≤ qs.length := Nat.cast_nonneg _
      rw [List.length_cons, Nat.cast_add, Nat.cast_one] at hn ⊢
      have hn' : 53 * qs.length / (2 : ℝ) ^ f.prec ≤ 1 / 100 := le_trans (by gcongr; linarith) hn
      obtain ⟨R, sR, eR⟩ := ih (fun Q h => hu Q (List.mem_cons_of_mem _ h)) hn' (fun Q h => hne Q (List.mem_cons_of_mem _ h))
      have hP : Qs.prod ≠ 0 := by
        rw [Ne, List.prod_eq_zero_iff]
        exact fun h0 => hne 0 (List.mem_cons_of_mem _ h0) rfl
      have hQ := hne Q List.mem_cons_self
      have nQ := hu Q List.mem_cons_self
      have n := norm_nonneg V
      have hnη : 27 * qs.length * (2 : ℝ) ^ f.emin * (1 / 2 ^ f.prec) ≤ 1 / 100 * 2 ^ f.emin := by
        have : 53 * qs.length / (2 : ℝ) ^ f.prec * 2 ^ f.emin ≤ 1 / 100 * 2 ^ f.emin := mul_le_mul_of_nonneg_right hn' hη0.le
        have e : 27 * qs.length * (2 : ℝ) ^ f.emin * (1 / 2 ^ f.prec) = 27 / 53 * (53 * qs.length / (2 : ℝ) ^ f.prec * 2 ^ f.emin) := by ring
        rw [e]
        have : 0 ≤ 53 * qs.length / (2 : ℝ) ^ f.prec * 2 ^ f.emin := by positivity
        linarith
      have hnl : 53 * qs.length / (2 : ℝ) ^ f.prec * ‖V‖ ≤ 1 / 100 * ‖V‖ := mul_le_mul_of_nonneg_right hn' n
      have nR : ‖R‖ ≤ 101 / 100 * ‖V‖ + 27 * qs.length * 2 ^ f.emin := by
        have := abs_norm_sub_norm_le R (Qs.prod * V * Qs.prod⁻¹)
        rw [rotation_norm hP] at this
        have := abs_le.1 (this.trans eR)
        linarith
      have hsmall : 27 * qs.length * (2 : ℝ) ^ f.emin ≤ 1 := by
        have h1 := prec_le hf
        have e : 27 * qs.length * (2 : ℝ) ^ f.emin ≤ 27 * qs.length * (1 / 2 ^ f.prec) := by gcongr; linarith
        have e' : 27 * qs.length * (1 / (2 : ℝ) ^ f.prec) = 27 / 53 * (53 * qs.length / (2 : ℝ) ^ f.prec) := by ring
        linarith
      obtain ⟨R', sR', eR', -⟩ := C119_rotation f hf q Q _ R _ hq' sR nQ (nQ.le hf) (by linarith)
      refine ⟨R', sR', ?_⟩
      have e1 : (Q :: Qs).prod * V * (Q :: Qs).prod⁻¹ = Q * (Qs.prod * V * Qs.prod⁻¹) * Q⁻¹ := by
        rw [List.prod_cons, mul_inv_rev]; simp only [mul_assoc]
      have t := norm_add_le (R' - Q * R * Q⁻¹) (Q * (R - Qs.prod * V * Qs.prod⁻¹) * Q⁻¹)
      have e2 : R' - Q * R * Q⁻¹ + Q * (R - Qs.prod * V * Qs.prod⁻¹) * Q⁻¹ = R' - Q * (Qs.prod * V * Qs.prod⁻¹) * Q⁻¹ := by
        rw [mul_sub, sub_mul]; abel
      rw [e2, rotation_norm hQ] at t
      rw [e1]
      have e3 : (22 / 2 ^ f.prec + 5 * (6 / 2 ^ f.prec)) * ‖R‖ = 52 * (1 / 2 ^ f.prec * ‖R‖) := by ring
      rw [e3] at eR'
      have b1 : 1 / 2 ^ f.prec * ‖R‖ ≤ 1 / 2 ^ f.prec * (101 / 100 * ‖V‖ + 27 * qs.length * 2 ^ f.emin) := mul_le_mul_of_nonneg_left nR hu0.le
      have e4 : 1 / 2 ^ f.prec * (101 / 100 * ‖V‖ + 27 * qs.length * 2 ^ f.emin) =
        101 / 100 * (1 / 2 ^ f.prec * ‖V‖) + 27 * qs.length * (2 : ℝ) ^ f.emin * (1 / 2 ^ f.prec) := by ring
      have e5 : 53 * (qs.length + 1) / 2 ^ f.prec * ‖V‖ = 53 * qs.length / 2 ^ f.prec * ‖V‖ + 53 * (1 / 2 ^ f.prec * ‖V‖) := by ring
      have e6 : 27 * ((qs.length : ℝ) + 1) * 2 ^ f.emin = 27 * qs.length * 2 ^ f.emin + 27 * 2 ^ f.emin := by ring
      have p0 : 0 ≤ 1 / 2 ^ f.prec * ‖V‖ := by positivity
      rw [e5, e6]
      linarith
  obtain ⟨R, sR, eR⟩ := key
  refine ⟨R, sR, eR, ?_⟩
  have hP : Qs.prod ≠ 0 := by
    rw [Ne, List.prod_eq_zero_iff]
    exact fun h0 => hne 0 h0 rfl
  have := abs_norm_sub_norm_le R (Qs.prod * V * Qs.prod⁻¹)
  rw [rotation_norm hP] at this
  exact this.trans eR

/-! ## Examples -/

/-- A rotation of a third of a turn about the diagonal. -/
def thirdTurn : Quat Flt := ⟨.fin false (1 / 2), .fin false (1 / 2), .fin false (1 / 2), .fin false (1 / 2)⟩

theorem thirdTurn_stands : StandsQuat .double thirdTurn (quatOf (1 / 2) (1 / 2) (1 / 2) (1 / 2)) := by
  have h : StandsReal .double (.fin false (1 / 2)) (1 / 2) :=
    ⟨1 / 2, by simpa using stands_double false (n := 1) (e := 1) (by norm_num) (by norm_num), by norm_num⟩
  exact ⟨h, h, h, h⟩

theorem thirdTurn_unit : ‖quatOf (1 / 2) (1 / 2) (1 / 2) (1 / 2)‖ = 1 := by
  have h := norm_sq4 (quatOf (1 / 2) (1 / 2) (1 / 2) (1 / 2))
  norm_num at h
  rcases h with h | h
  · exact h
  · linarith [norm_nonneg (quatOf (1 / 2) (1 / 2) (1 / 2) (1 / 2))]

def oneTwoThree : Vec3 Flt := ⟨.fin false 1, .fin false 2, .fin false 3⟩

theorem oneTwoThree_stands : StandsVec .double oneTwoThree (quatOf 0 1 2 3) :=
  ⟨rfl, ⟨1, by simpa [oneTwoThree] using stands_double false (n := 1) (e := 0) (by norm_num) (by norm_num), by simp⟩,
    ⟨2, by simpa [oneTwoThree] using stands_double false (n := 2) (e := 0) (by norm_num) (by norm_num), by simp⟩,
    ⟨3, by simpa [oneTwoThree] using stands_double false (n := 3) (e := 0) (by norm_num) (by norm_num), by simp⟩⟩

/-- The hypotheses of C118 and C119 hold for a million rotations of a third of a turn. -/
example (n : Nat) (hn : n ≤ 1000000) : ∃ qs Qs, qs.length = n ∧ List.Forall₂ (StandsQuat .double) qs Qs ∧ (∀ Q ∈ Qs, NearlyUnit .double Q) ∧
    53 * qs.length / (2 : ℝ) ^ Fmt.double.prec ≤ 1 / 100 ∧ ‖quatOf 0 1 2 3‖ ≤ Fmt.double.maxVal / 32 := by
  refine ⟨List.replicate n thirdTurn, List.replicate n (quatOf (1 / 2) (1 / 2) (1 / 2) (1 / 2)), List.length_replicate, ?_, ?_, ?_, ?_⟩
  · clear hn
    induction n with
    | zero => exact .nil
    | succ n ih => exact .cons thirdTurn_stands ih
  · intro Q hQ
    rw [List.eq_of_mem_replicate hQ, NearlyUnit, thirdTurn_unit, sub_self, abs_zero]
    positivity
  · have : (n : ℝ) ≤ 1000000 := by exact_mod_cast hn
    rw [List.length_replicate, div_le_iff₀ (by positivity)]
    norm_num [Fmt.double]
    linarith
  · have h := norm_sq4 (quatOf 0 1 2 3)
    have hM := (real_consts (f := .double) (.inl rfl)).2.2.2.2
    norm_num at h
    nlinarith [norm_nonneg (quatOf 0 1 2 3)]

/-- A third of a turn exchanges the axes, exactly; three of them are a whole turn. -/
example : rotate .double thirdTurn oneTwoThree = ⟨.fin false 3, .fin false 1, .fin false 2⟩ ∧
    rotate .double (quatMul .double thirdTurn (quatMul .double thirdTurn thirdTurn)) oneTwoThree = oneTwoThree := by decide +kernel

/-- Normalising `( 1; 2, 3, 4 )` and rotating. -/
example : StandsQuat .double ⟨.fin false 1, .fin false 2, .fin false 3, .fin false 4⟩ (quatOf 1 2 3 4) ∧
    2 * (2 ^ (1 - (Fmt.double.prec : Int))) ^ 2 ≤ ‖quatOf 1 2 3 4‖ ^ 2 ∧ ‖quatOf 1 2 3 4‖ ^ 2 ≤ Fmt.double.maxVal / 2 := by
  refine ⟨⟨⟨1, by simpa using stands_double false (n := 1) (e := 0) (by norm_num) (by norm_num), by simp⟩,
    ⟨2, by simpa using stands_double false (n := 2) (e := 0) (by norm_num) (by norm_num), by simp⟩,
    ⟨3, by simpa using stands_double false (n := 3) (e := 0) (by norm_num) (by norm_num), by simp⟩,
    ⟨4, by simpa using stands_double false (n := 4) (e := 0) (by norm_num) (by norm_num), by simp⟩⟩, ?_, ?_⟩
  · rw [norm_sq4]; norm_num [Fmt.double]
  · rw [norm_sq4]
    have hM := (real_consts (f := .double) (.inl rfl)).2.2.2.2
    norm_num
    linarith

end Flut
