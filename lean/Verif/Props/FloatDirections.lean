import Verif.Spec.FloatDirections
import Verif.Proofs.FloatDirections

/-! # C157: the rotation from one direction to another, in floating-point arithmetic -/

namespace Flut

open Spec FloatMath Quaternion

/-- Numbers that are taken to be equal. -/
theorem equals_real {f : Fmt} (hf : f = .double ∨ f = .single) {x y : Flt} {a b : ℝ} (hx : StandsReal f x a) (hy : StandsReal f y b)
    (h : equals f x y (relaxedEpsilon f) = true) : |a - b| ≤ |a| * (801 / 100 * (1 / 2 ^ f.prec)) + 2 ^ f.emin := by
  obtain ⟨hu0, hu, hn0, hn', hM⟩ := real_consts hf
  obtain ⟨a, sa, rfl⟩ := hx
  obtain ⟨b, sb, rfl⟩ := hy
  have he0 : (0 : ℚ) ≤ 4 * 2 ^ (1 - (f.prec : Int)) := by positivity
  have he1 : (4 * 2 ^ (1 - (f.prec : Int)) : ℚ) ≤ 1 := by rcases hf with rfl | rfl <;> decide +kernel
  have k := C102_equals_sound f hf _ _ _ _ _ _ sa sb (default_stands f hf) he0 he1 h
  have e : ((|a - b| : ℚ) : ℝ) ≤ ((|a| * (4 * 2 ^ (1 - (f.prec : Int))) * (1 + 3 / 2 ^ f.prec) + 2 ^ f.emin : ℚ) : ℝ) := by exact_mod_cast k
  push_cast at e
  have hp : (4 : ℝ) * 2 ^ (1 - (f.prec : Int)) = 8 * (1 / 2 ^ f.prec) := by
    rw [zpow_sub₀ (by norm_num : (2 : ℝ) ≠ 0), zpow_natCast, zpow_one]; ring
  rw [hp, show (3 : ℝ) / 2 ^ f.prec = 3 * (1 / 2 ^ f.prec) by ring] at e
  refine e.trans (add_le_add_left ?_ _)
  rw [mul_assoc]
  refine mul_le_mul_of_nonneg_left ?_ (abs_nonneg _)
  have : 8 * (1 / 2 ^ f.prec : ℝ) * (1 + 3 * (1 / 2 ^ f.prec)) ≤ 8 * (1 / 2 ^ f.prec) * (801 / 800) :=
    mul_le_mul_of_nonneg_left (by linarith) (by positivity)
  linarith

/-- Neither of the special cases is taken. -/
theorem not_special {f : Fmt} (hf : f = .double ∨ f = .single) {x y : Flt} {d l : ℝ} (hx : StandsReal f x d) (hy : StandsReal f y l)
    (hd : d ≤ 1 - 25 * (1 / 2 ^ f.prec)) (hd' : -1 ≤ d) (hl' : 1 / 2 ^ f.prec ≤ l) :
    (equals f x (.fin false 1) (relaxedEpsilon f) = true → False) ∧ (equals f y (.fin false 0) (relaxedEpsilon f) = true → False) := by
  obtain ⟨hu0, hu, hn0, hn', hM⟩ := real_consts hf
  have hsm := emin_small hf
  constructor
  · intro h
    have e := equals_real hf hx (b := 1) ⟨1, one_stands hf, by norm_num⟩ h
    have d1 : |d| ≤ 1 := abs_le.2 ⟨hd', by linarith⟩
    have := mul_le_mul_of_nonneg_right d1 (by positivity : (0 : ℝ) ≤ 801 / 100 * (1 / 2 ^ f.prec))
    rw [abs_sub_comm, abs_of_pos (by linarith)] at e
    linarith
  · intro h
    have e := equals_real hf hy (b := 0) ⟨0, zero_stands _ hf false, by norm_num⟩ h
    have l0 : 0 < l := by linarith
    rw [sub_zero, abs_of_pos l0] at e
    have := mul_le_mul_of_nonneg_left (by linarith : 801 / 100 * (1 / 2 ^ f.prec) ≤ (1 / 100 : ℝ)) l0.le
    linarith

/-- The vector product and the inner product of two directions, as the code computes them. -/
theorem products_close {f : Fmt} (hf : f = .double ∨ f = .single) {s t : Vec3 Flt} {S S' T T' : ℍ[ℝ]} (hS' : StandsVec f s S') (hT' : StandsVec f t T')
    (nS : ‖S‖ = 1) (nT : ‖T‖ = 1) (eS : ‖S' - S‖ ≤ 1002 / 100 * (1 / 2 ^ f.prec)) (eT : ‖T' - T‖ ≤ 1002 / 100 * (1 / 2 ^ f.prec)) :
    (∃ C, StandsVec f (crossProduct f s t) C ∧ ‖C - crossQ S T‖ ≤ 24 * (1 / 2 ^ f.prec)) ∧
    ∃ d, StandsReal f (dotProduct f s t) d ∧ |d - dotQ S T| ≤ 25 * (1 / 2 ^ f.prec) := by
  obtain ⟨hu0, hu, hn0, hn', hM⟩ := real_consts hf
  have hsm := emin_small hf
  have hM1 : (100 : ℝ) ≤ f.maxVal := le_trans (by norm_num) hM
  have nS' : ‖S'‖ ≤ 10001 / 10000 := by
    have := norm_add_le (S' - S) S
    rw [sub_add_cancel, nS] at this
    linarith
  have nT' : ‖T'‖ ≤ 10001 / 10000 := by
    have := norm_add_le (T' - T) T
    rw [sub_add_cancel, nT] at this
    linarith
  have s0 := norm_nonneg S'
  have t0 := norm_nonneg T'
  have prodST : ‖S'‖ * ‖T'‖ ≤ 1001 / 1000 := (mul_le_mul nS' nT' t0 (by norm_num)).trans (by norm_num)
  have lip : ‖S' - S‖ * ‖T'‖ + ‖S‖ * ‖T' - T‖ ≤ 2006 / 100 * (1 / 2 ^ f.prec) := by
    rw [nS, one_mul]
    have := mul_le_mul eS nT' t0 (by positivity)
    linarith
  -- the vector product
  obtain ⟨C', hC', eC⟩ := cross_close hf hS' hT' (by linarith)
  have dC : ‖C' - crossQ S T‖ ≤ 24 * (1 / 2 ^ f.prec) := by
    have e1 : 3466 / 1000 * (‖S'‖ * ‖T'‖) / 2 ^ f.prec ≤ 3466 / 1000 * (1001 / 1000) * (1 / 2 ^ f.prec) := by
      rw [← mul_one_div (3466 / 1000 * (‖S'‖ * ‖T'‖))]
      exact mul_le_mul_of_nonneg_right (mul_le_mul_of_nonneg_left prodST (by norm_num)) hu0.le
    have e2 := crossQ_close (V := S') (W := T') (S := S) (T := T)
    have e3 := norm_sub_le_norm_sub_add_norm_sub C' (crossQ S' T') (crossQ S T)
    linarith
  -- the inner product
  obtain ⟨d, sd, ed⟩ := dot_close hf hS' hT' (by linarith) (by linarith)
  have dD : |d - dotQ S T| ≤ 25 * (1 / 2 ^ f.prec) := by
    have e2 := dotQ_close (V := S') (W := T') (S := S) (T := T)
    have e3 := abs_sub_le d (dotQ S' T') (dotQ S T)
    linarith
  exact ⟨⟨C', hC', dC⟩, d, sd, dD⟩

/-- What follows from the errors of the two products, if the sine of the angle is not too small. -/
theorem products_bounds {u : ℝ} (hu0 : 0 < u) (hu : u ≤ 1 / 16777216) {S T C' : ℍ[ℝ]} {d D : ℝ} (lag : ‖crossQ S T‖ ^ 2 + D ^ 2 = 1)
    (hm : 100 * u ≤ ‖crossQ S T‖ ^ 2) (dC : ‖C' - crossQ S T‖ ≤ 24 * u) (dD : |d - D| ≤ 25 * u) :
    0 < ‖crossQ S T‖ ∧ ‖crossQ S T‖ ≤ 1 ∧ |D| ≤ 1 ∧ 76 / 100 * ‖crossQ S T‖ ≤ ‖C'‖ ∧ ‖C'‖ ≤ 1001 / 1000 ∧
      ‖‖C'‖⁻¹ • C' - ‖crossQ S T‖⁻¹ • crossQ S T‖ ≤ 48 * (u / ‖crossQ S T‖) ∧ (7 / 10 * ‖crossQ S T‖) ^ 2 ≤ 1 - d ^ 2 ∧ |d| ≤ 1 ∧ d ≤ 1 - 25 * u := by
  have hm0 : 0 < ‖crossQ S T‖ := by
    rcases (norm_nonneg (crossQ S T)).lt_or_eq with h' | h'
    · exact h'
    · rw [← h'] at hm
      linarith
  have hm1 : ‖crossQ S T‖ ≤ 1 := by
    refine le_of_sq_le_sq ?_ (by norm_num)
    nlinarith [sq_nonneg D]
  have hD1 : |D| ≤ 1 := by
    refine abs_le_of_sq_le_sq ?_ (by norm_num)
    nlinarith [sq_nonneg ‖crossQ S T‖]
  obtain ⟨D0, D1⟩ := abs_le.1 hD1
  obtain ⟨q1, q2⟩ := abs_le.1 dD
  have hm2 : ‖crossQ S T‖ ^ 2 ≤ ‖crossQ S T‖ := by nlinarith
  have hCl : 76 / 100 * ‖crossQ S T‖ ≤ ‖C'‖ := by
    have := norm_sub_norm_le (crossQ S T) C'
    rw [norm_sub_rev] at this
    linarith
  have hCu : ‖C'‖ ≤ 1001 / 1000 := by
    have := norm_add_le (C' - crossQ S T) (crossQ S T)
    rw [sub_add_cancel] at this
    linarith
  have hC0 : 0 < ‖C'‖ := by linarith
  have hdsq : (7 / 10 * ‖crossQ S T‖) ^ 2 ≤ 1 - d ^ 2 := by
    have : d ^ 2 - D ^ 2 ≤ 51 * u := by
      have : |(d - D) * (d + D)| ≤ 25 * u * (204 / 100) := by
        rw [abs_mul]
        refine mul_le_mul dD ?_ (abs_nonneg _) (by positivity)
        rw [abs_le]; constructor <;> linarith
      have e := (abs_le.1 this).2
      rw [show (d - D) * (d + D) = d ^ 2 - D ^ 2 by ring] at e
      linarith
    nlinarith
  refine ⟨hm0, hm1, hD1, hCl, hCu, ?_, ?_, ?_, ?_⟩
  · refine (directions_diff hC0 hm0).trans ?_
    have : ‖C' - crossQ S T‖ / ‖crossQ S T‖ ≤ 24 * u / ‖crossQ S T‖ := by gcongr
    rw [mul_div_assoc] at this
    linarith
  · exact hdsq
  · exact abs_le_of_sq_le_sq (by nlinarith [sq_nonneg (7 / 10 * ‖crossQ S T‖)]) (by norm_num)
  · nlinarith

/-- The last part of the code. -/
theorem directionsTurn_close {f : Fmt} (hf : f = .double ∨ f = .single) {L : Libm} {k : ℝ} (hL : Accurate f k L) (hk : k / 2 ^ f.prec ≤ 1 / 1000)
    {c : Vec3 Flt} {dd : Flt} {C' N : ℍ[ℝ]} {d D m : ℝ} (sd : StandsReal f dd d) (hm0 : 0 < m) (hm1 : m ≤ 1) (hm : 100 * (1 / 2 ^ f.prec) ≤ m ^ 2)
    (hD1 : |D| ≤ 1) (hd1 : |d| ≤ 1) (hdsq : (7 / 10 * m) ^ 2 ≤ 1 - d ^ 2) (hDsq : (7 / 10 * m) ^ 2 ≤ 1 - D ^ 2) (dD : |d - D| ≤ 25 * (1 / 2 ^ f.prec))
    (nN : ‖N‖ = 1) (dN : ‖‖C'‖⁻¹ • C' - N‖ ≤ 48 * ((1 / 2 ^ f.prec) / m))
    (ex : ∃ x, StandsReal f (normalizedMember f c).x x ∧ |x - C'.imI / ‖C'‖| ≤ 501 / 100 * (1 / 2 ^ f.prec))
    (ey : ∃ y, StandsReal f (normalizedMember f c).y y ∧ |y - C'.imJ / ‖C'‖| ≤ 501 / 100 * (1 / 2 ^ f.prec))
    (ez : ∃ z, StandsReal f (normalizedMember f c).z z ∧ |z - C'.imK / ‖C'‖| ≤ 501 / 100 * (1 / 2 ^ f.prec)) :
    ∃ Q, StandsQuat f (directionsTurn f L c (length f c) dd) Q ∧ ‖Q - axisQuat N (Real.arccos D)‖ ≤ (3 * k + 168) / 2 ^ f.prec / m := by
  obtain ⟨hu0, hu, hn0, hn', hM⟩ := real_consts hf
  have hsm := emin_small hf
  have hM1 : (100 : ℝ) ≤ f.maxVal := le_trans (by norm_num) hM
  obtain ⟨x, sx, ex⟩ := ex
  obtain ⟨y, sy, ey⟩ := ey
  obtain ⟨z, sz, ez⟩ := ez
  -- the angle
  have hang := arccos_close (μ := 7 / 10 * m) (by linarith) hd1 hD1 hdsq hDsq
  set w : ℝ := (1 / 2 ^ f.prec) / m with hw
  have w0 : 0 < w := by positivity
  have wu : 1 / 2 ^ f.prec ≤ w := by rw [hw, le_div_iff₀ hm0]; nlinarith
  have w1 : w ≤ 1 / 100 := by rw [hw, div_le_iff₀ hm0]; nlinarith
  have hang' : |Real.arccos d - Real.arccos D| ≤ 58 * w := by
    refine hang.trans ?_
    have : |d - D| / (7 / 10 * m) ≤ 25 * (1 / 2 ^ f.prec) / (7 / 10 * m) := by gcongr
    rw [show 25 * (1 / 2 ^ f.prec) / (7 / 10 * m) = 250 / 7 * w by rw [hw]; field_simp; norm_num] at this
    linarith
  obtain ⟨t, st, et⟩ := hL.acos _ _ sd hd1
  obtain ⟨h, sh, eh⟩ := halved hf st
  rw [f.mul_comm] at sh
  obtain ⟨cc, sc, ec⟩ := hL.cos _ _ sh
  obtain ⟨s, ss, es⟩ := hL.sin _ _ sh
  have k0 : 0 ≤ k * (1 / 2 ^ f.prec) := (abs_nonneg _).trans et
  have kk : 0 ≤ k := nonneg_of_mul_nonneg_left k0 hu0
  have hk' : k * (1 / 2 ^ f.prec) ≤ 1 / 1000 := by rwa [mul_one_div]
  have kw : k * (1 / 2 ^ f.prec) ≤ k * w := mul_le_mul_of_nonneg_left wu kk
  have hh : |h - Real.arccos D / 2| ≤ 1 / 2 * (k * w) + 2901 / 100 * w := by
    have e1 := abs_sub_le h (t / 2) (Real.arccos D / 2)
    have e2 : |t / 2 - Real.arccos D / 2| = |t - Real.arccos D| / 2 := by
      rw [← sub_div, abs_div, abs_of_pos (by norm_num : (0 : ℝ) < 2)]
    have e3 := abs_sub_le t (Real.arccos d) (Real.arccos D)
    linarith
  have hc : |cc - Real.cos (Real.arccos D / 2)| ≤ 3 / 2 * (k * w) + 2901 / 100 * w := by
    have e1 := abs_sub_le cc (Real.cos h) (Real.cos (Real.arccos D / 2))
    have e2 := Real.abs_cos_sub_cos_le h (Real.arccos D / 2)
    linarith
  have hs : |s - Real.sin (Real.arccos D / 2)| ≤ 3 / 2 * (k * w) + 2901 / 100 * w := by
    have e1 := abs_sub_le s (Real.sin h) (Real.sin (Real.arccos D / 2))
    have e2 := Real.abs_sin_sub_sin_le h (Real.arccos D / 2)
    linarith
  have hs1 : |s| ≤ 1001 / 1000 := by
    have e1 := abs_add_le (s - Real.sin h) (Real.sin h)
    rw [sub_add_cancel] at e1
    have := Real.abs_sin_le_one h
    linarith
  obtain ⟨_, i1, i2, i3⟩ := abs_le_norm N
  obtain ⟨_, j1, j2, j3⟩ := abs_le_norm (‖C'‖⁻¹ • C' - N)
  rw [nN] at i1 i2 i3
  have kw0 : 0 ≤ k * w := by positivity
  have part : ∀ {X : Flt} {p n g : ℝ}, StandsReal f X p → |p - g| ≤ 501 / 100 * (1 / 2 ^ f.prec) → |g - n| ≤ ‖‖C'‖⁻¹ • C' - N‖ → |n| ≤ 1 →
      ∃ r, StandsReal f (f.mul X (L.sin (f.mul (L.acos dd) (.fin false (1 / 2))))) r ∧
        |r - Real.sin (Real.arccos D / 2) * n| ≤ 3 / 2 * (k * w) + 84 * w := by
    intro X p n g sp h1 h2 h3
    have pn : |p - n| ≤ 5301 / 100 * w := by
      have := abs_sub_le p g n
      linarith
    have p1 : |p| ≤ 154 / 100 := by
      have := abs_add_le (p - n) n
      rw [sub_add_cancel] at this
      linarith
    have ps : |p * s| ≤ 155 / 100 := by
      rw [abs_mul]
      exact (mul_le_mul p1 hs1 (abs_nonneg _) (by norm_num)).trans (by norm_num)
    obtain ⟨r, sr, er⟩ := mul_real hf sp ss (by linarith)
    refine ⟨r, sr, ?_⟩
    have e1 : |p * s - Real.sin (Real.arccos D / 2) * n| ≤ 5301 / 100 * w * (1001 / 1000) + (3 / 2 * (k * w) + 2901 / 100 * w) := by
      rw [show p * s - Real.sin (Real.arccos D / 2) * n = (p - n) * s + n * (s - Real.sin (Real.arccos D / 2)) by ring]
      refine (abs_add_le _ _).trans ?_
      rw [abs_mul, abs_mul]
      have a1 := mul_le_mul pn hs1 (abs_nonneg _) (by positivity)
      have a2 := mul_le_mul h3 hs (abs_nonneg _) (by norm_num)
      linarith
    have e2 := abs_sub_le r (p * s) (Real.sin (Real.arccos D / 2) * n)
    have e3 : 1 / 2 ^ f.prec * |p * s| ≤ 155 / 100 * (1 / 2 ^ f.prec) := by
      rw [mul_comm]
      exact mul_le_mul_of_nonneg_right ps hu0.le
    linarith
  obtain ⟨Q, sQ, eQ⟩ := quat_close (W := Real.cos (Real.arccos D / 2)) (E := 3 / 2 * (k * w) + 84 * w) ⟨cc, sc, by linarith⟩
    (part sx ex (by simpa [div_eq_inv_mul] using j1) i1) (part sy ey (by simpa [div_eq_inv_mul] using j2) i2)
    (part sz ez (by simpa [div_eq_inv_mul] using j3) i3)
  refine ⟨Q, sQ, eQ.trans (le_of_eq ?_)⟩
  rw [hw]
  field_simp
  ring

/-- Away from equal and opposite directions the result is close to the rotation that takes the first direction to the second one, about the
vector at right angles to both. The error grows with the inverse of the sine of the angle. -/
theorem C157_directions_partial (f : Fmt) (hf : f = .double ∨ f = .single) (L : Libm) (k : ℝ) (hL : Accurate f k L) (hk : k / 2 ^ f.prec ≤ 1 / 1000)
    (source target : Vec3 Flt) (V W : ℍ[ℝ]) (hV : StandsVec f source V) (hW : StandsVec f target W)
    (bV : ‖V‖ ^ 2 ≤ f.maxVal / 2) (bW : ‖W‖ ^ 2 ≤ f.maxVal / 2) (sV : 2 * (2 / 2 ^ f.prec) ^ 2 ≤ ‖V‖ ^ 2) (sW : 2 * (2 / 2 ^ f.prec) ^ 2 ≤ ‖W‖ ^ 2)
    (hm : 100 / 2 ^ f.prec ≤ ‖normalTo V W‖ ^ 2) :
    ∃ Q P, StandsQuat f (directionsQuat f L source target) Q ∧ RotatesBy P (direction (normalTo V W)) (angleBetween V W) ∧
      P * direction V * P⁻¹ = direction W ∧ ‖Q - P‖ ≤ (3 * k + 168) / 2 ^ f.prec / ‖normalTo V W‖ := by
  obtain ⟨hu0, hu, hn0, hn', hM⟩ := real_consts hf
  have hsm := emin_small hf
  have hM1 : (100 : ℝ) ≤ f.maxVal := le_trans (by norm_num) hM
  have pos : ∀ {X : ℍ[ℝ]}, 2 * (2 / 2 ^ f.prec) ^ 2 ≤ ‖X‖ ^ 2 → 0 < ‖X‖ := by
    intro X h
    rcases (norm_nonneg X).lt_or_eq with h' | h'
    · exact h'
    · rw [← h'] at h
      have : (0 : ℝ) < 2 * (2 / 2 ^ f.prec) ^ 2 := by positivity
      linarith
  obtain ⟨S', hS', eS⟩ := direction_close hf hV bV sV
  obtain ⟨T', hT', eT⟩ := direction_close hf hW bW sW
  have unit : ∀ {X : ℍ[ℝ]}, 0 < ‖X‖ → ‖direction X‖ = 1 := by
    intro X h
    rw [direction, norm_smul, norm_inv, norm_norm, inv_mul_cancel₀ h.ne']
  have nS := unit (pos sV)
  have nT := unit (pos sW)
  have zS : (direction V).re = 0 := by simp [direction, hV.1]
  have zT : (direction W).re = 0 := by simp [direction, hW.1]
  change ‖S' - direction V‖ ≤ _ at eS
  change ‖T' - direction W‖ ≤ _ at eT
  rw [angleBetween]
  rw [normalTo] at hm ⊢
  obtain ⟨p1, p2⟩ := pure_mul zS zT
  rw [p1] at hm ⊢
  rw [p2, neg_neg]
  generalize direction V = S at *
  generalize direction W = T at *
  obtain ⟨⟨C', hC', dC⟩, d, sd, dD⟩ := products_close hf hS' hT' nS nT eS eT
  rw [show (100 : ℝ) / 2 ^ f.prec = 100 * (1 / 2 ^ f.prec) by ring] at hm
  have lag := lagrange zS zT nS nT
  obtain ⟨hm0, hm1, hD1, hCl, hCu, dN, hdsq, hd1, hdu⟩ := products_bounds hu0 hu lag hm dC dD
  obtain ⟨rot, takes⟩ := axisQuat_takes zS zT nS nT hm0
  have hC0 : 0 < ‖C'‖ := by linarith
  have hC2 : (76 / 100 * ‖crossQ S T‖) ^ 2 ≤ ‖C'‖ ^ 2 := by gcongr
  have hC3 : ‖C'‖ ^ 2 ≤ (1001 / 1000) ^ 2 := by gcongr
  have hu2 : (1 / 2 ^ f.prec : ℝ) ^ 2 ≤ 1 / 2 ^ f.prec := by
    rw [sq]
    exact mul_le_of_le_one_right hu0.le (by linarith)
  obtain ⟨_, ⟨l, sl, el⟩, ex, ey, ez⟩ := (normalize_real hf hC' (by linarith)).2 (by
    rw [show (2 : ℝ) / 2 ^ f.prec = 2 * (1 / 2 ^ f.prec) by ring, mul_pow]
    rw [mul_pow] at hC2
    linarith)
  rw [show (3 : ℝ) / 2 ^ f.prec = 3 * (1 / 2 ^ f.prec) by ring] at el
  have hl0 : 1 / 2 ^ f.prec ≤ l := by
    have e1 := (abs_le.1 el).1
    have e2 : 3 * (1 / 2 ^ f.prec) * ‖C'‖ ≤ 1 / 2 * ‖C'‖ := mul_le_mul_of_nonneg_right (by linarith) hC0.le
    have e3 : ‖crossQ S T‖ ^ 2 ≤ ‖crossQ S T‖ := by
      rw [sq]
      exact mul_le_of_le_one_right hm0.le hm1
    linarith
  obtain ⟨b1, b2⟩ := not_special hf sd sl hdu (abs_le.1 hd1).1 hl0
  obtain ⟨Q, sQ, eQ⟩ := directionsTurn_close hf hL hk (c := crossProduct f (FloatMath.normalize f source) (FloatMath.normalize f target))
    (N := ‖crossQ S T‖⁻¹ • crossQ S T) sd hm0 hm1 hm hD1 hd1 hdsq
    (by rw [mul_pow]; linarith [sq_nonneg ‖crossQ S T‖]) dD (by rw [norm_smul, norm_inv, norm_norm, inv_mul_cancel₀ hm0.ne']) dN ex ey ez
  refine ⟨Q, _, ?_, rot, takes, eQ⟩
  simp only [directionsQuat]
  rw [if_neg b1, if_neg b2]
  exact sQ

/-- A quarter of a turn, from the first axis to the second one. -/
example : ∃ L, Accurate .double 8 L ∧ ∃ Q P, StandsQuat .double (directionsQuat .double L ⟨.fin false 2, .fin false 0, .fin false 0⟩ ⟨.fin false 0, .fin false 3, .fin false 0⟩) Q ∧
    P * axisI * P⁻¹ = axisJ ∧ ‖Q - P‖ ≤ 192 / 2 ^ 53 := by
  have hd : Fmt.double = .double ∨ Fmt.double = .single := .inl rfl
  obtain ⟨L, hL⟩ := accurate_exists hd
  have hM := (real_consts hd).2.2.2.2
  have z0 : StandsReal .double (.fin false 0) 0 := ⟨0, zero_stands _ hd false, by norm_num⟩
  have n2 : StandsReal .double (.fin false 2) 2 := ⟨2, by simpa using stands_double false (n := 2) (e := 0) (by norm_num) (by norm_num), by norm_num⟩
  have n3 : StandsReal .double (.fin false 3) 3 := ⟨3, by simpa using stands_double false (n := 3) (e := 0) (by norm_num) (by norm_num), by norm_num⟩
  have l2 : ‖(2 : ℝ) • axisI‖ = 2 := by rw [norm_smul, axisI_unit.2]; norm_num
  have l3 : ‖(3 : ℝ) • axisJ‖ = 3 := by rw [norm_smul, axisJ_unit.2]; norm_num
  have d2 : direction ((2 : ℝ) • axisI) = axisI := by rw [direction, l2, smul_smul]; norm_num
  have d3 : direction ((3 : ℝ) • axisJ) = axisJ := by rw [direction, l3, smul_smul]; norm_num
  have e2 : (2 : ℝ) • axisI = quatOf 0 2 0 0 := by
    rw [show axisI = quatOf 0 1 0 0 from rfl]; ext <;> simp
  have e3 : (3 : ℝ) • axisJ = quatOf 0 0 3 0 := by
    rw [show axisJ = quatOf 0 0 1 0 from rfl]; ext <;> simp
  have hN : normalTo ((2 : ℝ) • axisI) ((3 : ℝ) • axisJ) = axisK := by
    rw [normalTo, d2, d3, show axisI = quatOf 0 1 0 0 from rfl, show axisJ = quatOf 0 0 1 0 from rfl, show axisK = quatOf 0 0 0 1 from rfl]
    ext <;> simp
  obtain ⟨Q, P, sQ, _, t, e⟩ := C157_directions_partial .double hd L 8 hL (by norm_num [Fmt.double])
    ⟨.fin false 2, .fin false 0, .fin false 0⟩ ⟨.fin false 0, .fin false 3, .fin false 0⟩ ((2 : ℝ) • axisI) ((3 : ℝ) • axisJ)
    (by rw [e2]; exact ⟨rfl, n2, z0, z0⟩) (by rw [e3]; exact ⟨rfl, z0, n3, z0⟩)
    (by rw [l2]; linarith [(by norm_num : (100 : ℝ) ≤ 10 ^ 30)]) (by rw [l3]; linarith [(by norm_num : (100 : ℝ) ≤ 10 ^ 30)])
    (by rw [l2]; norm_num [Fmt.double]) (by rw [l3]; norm_num [Fmt.double]) (by rw [hN, axisK_unit.2]; norm_num [Fmt.double])
  rw [d2, d3] at t
  rw [hN, axisK_unit.2, div_one, show Fmt.double.prec = 53 from rfl] at e
  exact ⟨L, hL, Q, P, sQ, t, e.trans (by norm_num)⟩

/-- From a vector to itself: the identity if its direction, as computed, is accepted as normalised. If it is not, the result is a half of a turn
about the first axis, whatever the vector is. -/
theorem C157_same (f : Fmt) (hf : f = .double ∨ f = .single) (L : Libm) (v : Vec3 Flt) (V : ℍ[ℝ]) (hV : StandsVec f v V)
    (bV : ‖V‖ ^ 2 ≤ f.maxVal / 2) (sV : 2 * (2 / 2 ^ f.prec) ^ 2 ≤ ‖V‖ ^ 2) :
    (isNormalized f (FloatMath.normalize f v) = true → directionsQuat f L v v = quatIdentity) ∧
    (isNormalized f (FloatMath.normalize f v) = false → directionsQuat f L v v = ⟨.fin false 0, .fin false 1, .fin false 0, .fin false 0⟩) := by
  obtain ⟨hu0, hu, hn0, hn', hM⟩ := real_consts hf
  have hM1 : (100 : ℝ) ≤ f.maxVal := le_trans (by norm_num) hM
  obtain ⟨S, hS, eS⟩ := direction_close hf hV bV sV
  have nS : ‖S‖ ≤ 2 := by
    have h1 := norm_add_le (S - ‖V‖⁻¹ • V) (‖V‖⁻¹ • V)
    have h2 : ‖‖V‖⁻¹ • V‖ ≤ 1 := by
      rw [norm_smul, norm_inv, norm_norm]
      exact inv_mul_le_one
    rw [sub_add_cancel] at h1
    linarith
  obtain ⟨_, i1, i2, i3⟩ := abs_le_norm S
  obtain ⟨_, ⟨a, sa, ea⟩, ⟨b, sb, eb⟩, ⟨c, sc, ec⟩⟩ := hS
  rw [ea] at i1
  rw [eb] at i2
  rw [ec] at i3
  have small : ∀ {p q : ℚ}, |(p : ℝ)| ≤ ‖S‖ → |(q : ℝ)| ≤ ‖S‖ → |p * q| ≤ f.maxVal := by
    intro p q hp hq
    have : ((|p * q| : ℚ) : ℝ) ≤ (f.maxVal : ℝ) := by
      push_cast
      rw [abs_mul]
      have := mul_le_mul (hp.trans nS) (hq.trans nS) (abs_nonneg _) (by norm_num)
      linarith
    exact_mod_cast this
  have hc := C113_cross_self f hf _ a b c sa sb sc (small i2 i3) (small i3 i1) (small i1 i2)
  constructor
  · intro h
    simp only [directionsQuat]
    exact if_pos h
  · intro h
    have h' : equals f (dotProduct f (FloatMath.normalize f v) (FloatMath.normalize f v)) (.fin false 1) (relaxedEpsilon f) = false := h
    have l0 : equals f (length f ⟨.fin false 0, .fin false 0, .fin false 0⟩) (.fin false 0) (relaxedEpsilon f) = true := by
      rcases hf with rfl | rfl <;> decide +kernel
    simp only [directionsQuat, hc, h', l0, if_true]
    rfl

/-- A half of a turn for a vector and itself. -/
theorem C157_same_refuted (L : Libm) : directionsQuat .double L notNormalized notNormalized = ⟨.fin false 0, .fin false 1, .fin false 0, .fin false 0⟩ ∧
    ¬ TurnsDirections L := by
  have hd : Fmt.double = .double ∨ Fmt.double = .single := .inl rfl
  have hM := (real_consts hd).2.2.2.2
  let V : ℍ[ℝ] := quatOf 0 (3740415844828919 / 2 ^ 52) (2601769559821351 / 2 ^ 52) (372006833763763 / 2 ^ 53)
  have hV : StandsVec .double notNormalized V := by
    refine ⟨rfl, ⟨3740415844828919 / 2 ^ 52, ?_, ?_⟩, ⟨2601769559821351 / 2 ^ 52, ?_, ?_⟩, ⟨372006833763763 / 2 ^ 53, ?_, ?_⟩⟩
    · simpa [notNormalized] using stands_double false (n := 3740415844828919) (e := 52) (by norm_num) (by norm_num)
    · simp [V]
    · simpa [notNormalized] using stands_double false (n := 2601769559821351) (e := 52) (by norm_num) (by norm_num)
    · simp [V]
    · simpa [notNormalized] using stands_double false (n := 372006833763763) (e := 53) (by norm_num) (by norm_num)
    · simp [V]
  have nV : ‖V‖ ^ 2 = (3740415844828919 / 2 ^ 52) ^ 2 + (2601769559821351 / 2 ^ 52) ^ 2 + (372006833763763 / 2 ^ 53) ^ 2 := by
    rw [norm_sq4]; simp [V]
  have n0 := norm_nonneg V
  have lo : 1 / 2 ≤ ‖V‖ := le_of_sq_le_sq (by rw [nV]; norm_num) n0
  have hi : ‖V‖ ≤ 2 := le_of_sq_le_sq (by rw [nV]; norm_num) (by norm_num)
  have run := (C157_same .double hd L notNormalized V hV (by rw [nV]; refine le_trans ?_ (div_le_div_of_nonneg_right hM (by norm_num)); norm_num)
    (by rw [nV]; norm_num [Fmt.double])).2 (by decide +kernel)
  refine ⟨run, fun h => ?_⟩
  obtain ⟨Q, sQ, _, hQ⟩ := h _ _ V V hV hV lo (by linarith) lo (by linarith)
  rw [run] at sQ
  have z0 : StandsReal .double (.fin false 0) 0 := ⟨0, zero_stands _ hd false, by norm_num⟩
  have o1 : StandsReal .double (.fin false 1) 1 := ⟨1, one_stands hd, by norm_num⟩
  have eQ : Q = axisI := by
    obtain ⟨a, b, c, d⟩ := sQ
    ext
    · exact stands_unique a z0
    · exact stands_unique b o1
    · exact stands_unique c z0
    · exact stands_unique d z0
  have inv : axisI⁻¹ = -axisI := by
    rw [show axisI = quatOf 0 1 0 0 from rfl, inv_eq_of_mul_eq_one_right]
    ext <;> simp
  have key : ‖axisI * V * axisI⁻¹ - V‖ ^ 2 = 4 * ((2601769559821351 / 2 ^ 52) ^ 2 + (372006833763763 / 2 ^ 53) ^ 2) := by
    rw [inv, show axisI = quatOf 0 1 0 0 from rfl, norm_sq4]
    simp [V]
    norm_num
  rw [eQ, direction, mul_smul_comm, smul_mul_assoc, ← smul_sub, norm_smul, norm_inv, norm_norm, inv_mul_lt_iff₀ (by linarith), mul_one] at hQ
  have : ‖axisI * V * axisI⁻¹ - V‖ ^ 2 < ‖V‖ ^ 2 := by
    have := norm_nonneg (axisI * V * axisI⁻¹ - V)
    gcongr
  rw [key, nV] at this
  norm_num at this

/-- Whole numbers. -/
theorem whole_stands (s : Bool) {n : ℕ} (h : n < 2 ^ 53) : StandsReal .double (.fin s n) (if s then -(n : ℝ) else n) := by
  refine ⟨if s then -(n : ℚ) else n, by simpa using stands_double s (n := n) (e := 0) h (by norm_num), ?_⟩
  cases s <;> simp

/-- For some vectors in opposite directions the inner product is below minus one: the result is not a number. -/
theorem C157_nan_refuted (L : Libm) (k : ℝ) (hL : Accurate .double k L) (hn : L.cos (.nan false) = .nan false) :
    (directionsQuat .double L ⟨.fin false 6, .fin true 8, .fin false 0⟩ ⟨.fin true 18, .fin false 24, .fin false 0⟩).w = .nan false := by
  have e : ∀ L, (directionsQuat .double L ⟨.fin false 6, .fin true 8, .fin false 0⟩ ⟨.fin true 18, .fin false 24, .fin false 0⟩).w =
      L.cos (Fmt.double.mul (L.acos (.fin true (4503599627370497 / 4503599627370496))) (.fin false (1 / 2))) := by
    intro L
    have d : dotProduct .double (FloatMath.normalize .double ⟨.fin false 6, .fin true 8, .fin false 0⟩) (FloatMath.normalize .double ⟨.fin true 18, .fin false 24, .fin false 0⟩) =
      .fin true (4503599627370497 / 4503599627370496) := by decide +kernel
    have b1 : equals .double (.fin true (4503599627370497 / 4503599627370496)) (.fin false 1) (relaxedEpsilon .double) = false := by decide +kernel
    have b2 : equals .double (length .double (crossProduct .double (FloatMath.normalize .double ⟨.fin false 6, .fin true 8, .fin false 0⟩)
      (FloatMath.normalize .double ⟨.fin true 18, .fin false 24, .fin false 0⟩))) (.fin false 0) (relaxedEpsilon .double) = false := by decide +kernel
    simp only [directionsQuat, d, b1, b2]
    rfl
  have s : StandsReal .double (.fin true (4503599627370497 / 4503599627370496)) (-(4503599627370497 / 4503599627370496)) := by
    refine ⟨-(4503599627370497 / 4503599627370496), ?_, by norm_num⟩
    have := stands_double true (n := 4503599627370497) (e := 52) (by norm_num) (by norm_num)
    norm_num at this
    exact this
  rw [e, hL.domain _ _ s (by rw [abs_neg, abs_of_pos (by norm_num)]; norm_num)]
  exact hn

/-- There is such a library. -/
example : ∃ L, Accurate .double 8 L ∧ L.cos (.nan false) = .nan false := by
  obtain ⟨L, hL⟩ := accurate_exists (.inl rfl : Fmt.double = .double ∨ Fmt.double = .single)
  classical
  refine ⟨⟨L.sin, fun x => if x = .nan false then .nan false else L.cos x, L.acos⟩, ⟨hL.sin, fun x a h => ?_, hL.acos, hL.domain⟩, by simp⟩
  have : x ≠ .nan false := by
    rintro rfl
    obtain ⟨q, hq, _⟩ := h
    obtain ⟨s, m, e, _⟩ := hq.fin
    cases e
  simp only [this, if_false]
  exact hL.cos x a h

/-- For other vectors in opposite directions the axis is made of rounding errors. Here it is nearly along the vectors themselves: the result
is close to the half of a turn about the second axis, which takes `(-2, 660, -11)` to `(2, 660, 11)` and not to the opposite. -/
theorem C157_opposite_refuted (L : Libm) (hL : Accurate .double 8 L) :
    (∃ Q, StandsQuat .double (directionsQuat .double L ⟨.fin true 2, .fin false 660, .fin true 11⟩ ⟨.fin false 6, .fin true 1980, .fin false 33⟩) Q ∧
      ‖Q - axisJ‖ ≤ 30 / 2 ^ 53) ∧ axisJ * quatOf 0 (-2) 660 (-11) * axisJ⁻¹ = quatOf 0 2 660 11 := by
  have hd : Fmt.double = .double ∨ Fmt.double = .single := .inl rfl
  obtain ⟨hu0, hu, hn0, hn', hM⟩ := real_consts hd
  have hsm := emin_small hd
  have hM1 : (100 : ℝ) ≤ Fmt.double.maxVal := le_trans (by norm_num) hM
  have hinv : axisJ⁻¹ = -axisJ := by
    rw [show axisJ = quatOf 0 0 1 0 from rfl, inv_eq_of_mul_eq_one_right]
    ext <;> simp
  refine ⟨?_, by rw [hinv, show axisJ = quatOf 0 0 1 0 from rfl]; ext <;> simp⟩
  have run : directionsQuat .double L ⟨.fin true 2, .fin false 660, .fin true 11⟩ ⟨.fin false 6, .fin true 1980, .fin false 33⟩ =
      ⟨L.cos (Fmt.double.mul (L.acos (.fin true 1)) (.fin false (1 / 2))),
        Fmt.double.mul (.fin false 0) (L.sin (Fmt.double.mul (L.acos (.fin true 1)) (.fin false (1 / 2)))),
        Fmt.double.mul (.fin false 1) (L.sin (Fmt.double.mul (L.acos (.fin true 1)) (.fin false (1 / 2)))),
        Fmt.double.mul (.fin false 0) (L.sin (Fmt.double.mul (L.acos (.fin true 1)) (.fin false (1 / 2))))⟩ := by
    have d : dotProduct .double (FloatMath.normalize .double ⟨.fin true 2, .fin false 660, .fin true 11⟩) (FloatMath.normalize .double ⟨.fin false 6, .fin true 1980, .fin false 33⟩) =
      .fin true 1 := by decide +kernel
    have c : crossProduct .double (FloatMath.normalize .double ⟨.fin true 2, .fin false 660, .fin true 11⟩) (FloatMath.normalize .double ⟨.fin false 6, .fin true 1980, .fin false 33⟩) =
      ⟨.fin false 0, .fin false (1 / 2 ^ 67), .fin false 0⟩ := by decide +kernel
    have b1 : equals .double (.fin true 1) (.fin false 1) (relaxedEpsilon .double) = false := by decide +kernel
    have b2 : equals .double (length .double ⟨.fin false 0, .fin false (1 / 2 ^ 67), .fin false 0⟩) (.fin false 0) (relaxedEpsilon .double) = false := by decide +kernel
    have b3 : divide .double ⟨.fin false 0, .fin false (1 / 2 ^ 67), .fin false 0⟩ (length .double ⟨.fin false 0, .fin false (1 / 2 ^ 67), .fin false 0⟩) =
      ⟨.fin false 0, .fin false 1, .fin false 0⟩ := by decide +kernel
    simp only [directionsQuat, directionsTurn, d, c, b1, b2, b3]
    rfl
  have s : StandsReal .double (.fin true 1) (-1) := by simpa using whole_stands true (n := 1) (by norm_num)
  have z0 : StandsReal .double (.fin false 0) 0 := ⟨0, zero_stands _ hd false, by norm_num⟩
  have o1 : StandsReal .double (.fin false 1) 1 := ⟨1, one_stands hd, by norm_num⟩
  obtain ⟨t, st, et⟩ := hL.acos _ _ s (by norm_num)
  rw [Real.arccos_neg_one] at et
  obtain ⟨h, sh, eh⟩ := halved hd st
  rw [Fmt.double.mul_comm] at sh
  obtain ⟨c, sc, ec⟩ := hL.cos _ _ sh
  obtain ⟨r, sr, er⟩ := hL.sin _ _ sh
  have hh : |h - Real.pi / 2| ≤ 41 / 10 * (1 / 2 ^ Fmt.double.prec) := by
    have e1 := abs_sub_le h (t / 2) (Real.pi / 2)
    have e2 : |t / 2 - Real.pi / 2| = |t - Real.pi| / 2 := by rw [← sub_div, abs_div, abs_of_pos (by norm_num : (0 : ℝ) < 2)]
    linarith
  have hc : |c - 0| ≤ 15 * (1 / 2 ^ Fmt.double.prec) := by
    have e1 := abs_sub_le c (Real.cos h) 0
    have e2 := Real.abs_cos_sub_cos_le h (Real.pi / 2)
    rw [Real.cos_pi_div_two] at e2
    linarith
  have hr : |r - 1| ≤ 125 / 10 * (1 / 2 ^ Fmt.double.prec) := by
    have e1 := abs_sub_le r (Real.sin h) 1
    have e2 := Real.abs_sin_sub_sin_le h (Real.pi / 2)
    rw [Real.sin_pi_div_two] at e2
    linarith
  have hr1 : |r| ≤ 11 / 10 := by
    obtain ⟨h1, h2⟩ := abs_le.1 hr
    rw [abs_le]; constructor <;> linarith
  obtain ⟨x, sx, ex⟩ := mul_real hd z0 sr (by rw [zero_mul, abs_zero]; linarith)
  obtain ⟨y, sy, ey⟩ := mul_real hd o1 sr (by rw [one_mul]; linarith)
  have hx : |x - 0| ≤ 15 * (1 / 2 ^ Fmt.double.prec) := by
    rw [zero_mul, abs_zero, mul_zero] at ex
    linarith
  have hy : |y - 1| ≤ 15 * (1 / 2 ^ Fmt.double.prec) := by
    rw [one_mul] at ey
    have e1 := abs_sub_le y r 1
    have := mul_le_mul_of_nonneg_left hr1 hu0.le
    linarith
  obtain ⟨Q, sQ, eQ⟩ := quat_close (E := 15 * (1 / 2 ^ Fmt.double.prec)) ⟨c, sc, hc⟩ ⟨x, sx, hx⟩ ⟨y, sy, hy⟩ ⟨x, sx, hx⟩
  refine ⟨Q, by rw [run]; exact sQ, ?_⟩
  have e : quatOf 0 0 1 0 = axisJ := rfl
  rw [e] at eQ
  refine eQ.trans ?_
  rw [show Fmt.double.prec = 53 from rfl]
  norm_num

end Flut
