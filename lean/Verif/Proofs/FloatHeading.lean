import Verif.Spec.FloatHeading
import Verif.Proofs.FloatEuler

/-! # Lemmas about angles of points -/

namespace Flut

open Spec FloatMath Quaternion

theorem radius_nonneg (x y : ℝ) : 0 ≤ radius x y := Real.sqrt_nonneg _

theorem radius_sq (x y : ℝ) : radius x y ^ 2 = x ^ 2 + y ^ 2 := Real.sq_sqrt (by positivity)

theorem radius_polar {r : ℝ} (hr : 0 ≤ r) (θ : ℝ) : radius (r * Real.cos θ) (r * Real.sin θ) = r := by
  unfold radius
  rw [show (r * Real.cos θ) ^ 2 + (r * Real.sin θ) ^ 2 = r ^ 2 * (Real.sin θ ^ 2 + Real.cos θ ^ 2) by ring, Real.sin_sq_add_cos_sq, mul_one,
    Real.sqrt_sq hr]

/-- Distances of points in a plane. -/
theorem radius_add (a b c d : ℝ) : radius (a + c) (b + d) ≤ radius a b + radius c d := by
  have h1 := radius_nonneg a b
  have h2 := radius_nonneg c d
  have s1 := radius_sq a b
  have s2 := radius_sq c d
  refine le_of_sq_le_sq ?_ (by linarith)
  rw [radius_sq]
  have h3 : a * c + b * d ≤ radius a b * radius c d := by
    refine le_of_sq_le_sq ?_ (mul_nonneg h1 h2)
    rw [mul_pow, s1, s2]
    nlinarith [sq_nonneg (a * d - b * c)]
  nlinarith

theorem radius_scale (r a b : ℝ) : radius (r * a) (r * b) = |r| * radius a b := by
  unfold radius
  rw [show (r * a) ^ 2 + (r * b) ^ 2 = r ^ 2 * (a ^ 2 + b ^ 2) by ring, Real.sqrt_mul (sq_nonneg r), Real.sqrt_sq_eq_abs]

theorem radius_le_abs (a b : ℝ) : radius a b ≤ |a| + |b| := by
  refine le_of_sq_le_sq ?_ (by positivity)
  rw [radius_sq]
  have := abs_nonneg a
  have := abs_nonneg b
  nlinarith [sq_abs a, sq_abs b]

theorem pointsTo_iff {t x y e : ℝ} (he : 0 ≤ e) : PointsTo t x y e ↔ radius (radius x y * Real.cos t - x) (radius x y * Real.sin t - y) ≤ e := by
  unfold PointsTo
  rw [← radius_sq]
  exact ⟨fun h => le_of_sq_le_sq h he, fun h => pow_le_pow_left₀ (radius_nonneg _ _) h 2⟩

/-- Points on the unit circle. -/
theorem circle_close (t θ : ℝ) : radius (Real.cos t - Real.cos θ) (Real.sin t - Real.sin θ) = 2 * |Real.sin ((t - θ) / 2)| := by
  have h : (Real.cos t - Real.cos θ) ^ 2 + (Real.sin t - Real.sin θ) ^ 2 = (2 * |Real.sin ((t - θ) / 2)|) ^ 2 := by
    rw [mul_pow, sq_abs, Real.sin_sq_eq_half_sub, show 2 * ((t - θ) / 2) = t - θ by ring, Real.cos_sub]
    nlinarith [Real.sin_sq_add_cos_sq t, Real.sin_sq_add_cos_sq θ]
  unfold radius
  rw [h, Real.sqrt_sq (by positivity)]

/-- An angle of a point nearby, and an error in the angle. -/
theorem pointsTo_of {x y x' y' t θ d η : ℝ} (h : AngleOf x' y' θ) (hd : radius (x' - x) (y' - y) ≤ d) (hη : |t - θ| ≤ η) (h1 : radius x y ≤ 1) :
    PointsTo t x y (2 * d + η) := by
  have d0 : 0 ≤ d := (radius_nonneg _ _).trans hd
  have η0 : 0 ≤ η := (abs_nonneg _).trans hη
  rw [pointsTo_iff (by linarith)]
  have r0 := radius_nonneg x y
  have c : radius (Real.cos t - Real.cos θ) (Real.sin t - Real.sin θ) ≤ η := by
    rw [circle_close]
    have : |Real.sin ((t - θ) / 2)| ≤ |(t - θ) / 2| := Real.abs_sin_le_abs
    rw [abs_div, abs_two] at this
    linarith
  have e1 : radius (radius x y * (Real.cos t - Real.cos θ)) (radius x y * (Real.sin t - Real.sin θ)) ≤ η := by
    rw [radius_scale, abs_of_nonneg r0]
    have := mul_le_mul h1 c (radius_nonneg _ _) (by norm_num)
    linarith
  have e2 : |radius x y - radius x' y'| ≤ d := by
    have a := radius_add x' y' (x - x') (y - y')
    have b := radius_add x y (x' - x) (y' - y)
    have s : radius (x - x') (y - y') = radius (x' - x) (y' - y) := by
      unfold radius
      congr 1
      ring
    rw [s] at a
    rw [show x' + (x - x') = x by ring, show y' + (y - y') = y by ring] at a
    rw [show x + (x' - x) = x' by ring, show y + (y' - y) = y' by ring] at b
    rw [abs_le]
    constructor <;> linarith
  have e3 : radius ((radius x y - radius x' y') * Real.cos θ) ((radius x y - radius x' y') * Real.sin θ) ≤ d := by
    rw [radius_scale]
    have := radius_polar (zero_le_one (α := ℝ)) θ
    rw [one_mul, one_mul] at this
    rw [this, mul_one]
    exact e2
  obtain ⟨h2, h3⟩ := h
  have a1 := radius_add (radius x y * (Real.cos t - Real.cos θ)) (radius x y * (Real.sin t - Real.sin θ))
    ((radius x y - radius x' y') * Real.cos θ) ((radius x y - radius x' y') * Real.sin θ)
  have a2 := radius_add (radius x y * (Real.cos t - Real.cos θ) + (radius x y - radius x' y') * Real.cos θ)
    (radius x y * (Real.sin t - Real.sin θ) + (radius x y - radius x' y') * Real.sin θ) (x' - x) (y' - y)
  have f1 : radius x y * (Real.cos t - Real.cos θ) + (radius x y - radius x' y') * Real.cos θ + (x' - x) = radius x y * Real.cos t - x := by
    linear_combination h2
  have f2 : radius x y * (Real.sin t - Real.sin θ) + (radius x y - radius x' y') * Real.sin θ + (y' - y) = radius x y * Real.sin t - y := by
    linear_combination h3
  rw [f1, f2] at a2
  linarith

/-- Every point has an angle. -/
theorem angleOf_exists (x y : ℝ) : ∃ θ, AngleOf x y θ ∧ |θ| ≤ Real.pi := by
  refine ⟨Complex.arg ⟨x, y⟩, ⟨?_, ?_⟩, Complex.abs_arg_le_pi _⟩
  · have := Complex.norm_mul_cos_arg ⟨x, y⟩
    rw [Complex.norm_def, Complex.normSq_mk] at this
    simpa [radius, sq] using this.symm
  · have := Complex.norm_mul_sin_arg ⟨x, y⟩
    rw [Complex.norm_def, Complex.normSq_mk] at this
    simpa [radius, sq] using this.symm

/-- How far the angle is off, for a point that is not the origin. -/
theorem pointsTo_angle {t x y e : ℝ} (h : PointsTo t x y e) (he : 0 ≤ e) (hr : 0 < radius x y) :
    ∃ θ, AngleOf x y θ ∧ |t - θ| ≤ Real.pi / 2 * (e / radius x y) := by
  obtain ⟨θ₀, ⟨h1, h2⟩, _⟩ := angleOf_exists x y
  have hp := Real.pi_pos
  let n : ℤ := round ((t - θ₀) / (2 * Real.pi))
  refine ⟨θ₀ + n * (2 * Real.pi), ⟨?_, ?_⟩, ?_⟩
  · rw [Real.cos_add_int_mul_two_pi]; exact h1
  · rw [Real.sin_add_int_mul_two_pi]; exact h2
  have hn := abs_sub_round ((t - θ₀) / (2 * Real.pi))
  have hd : |t - (θ₀ + n * (2 * Real.pi))| ≤ Real.pi := by
    have : t - (θ₀ + n * (2 * Real.pi)) = ((t - θ₀) / (2 * Real.pi) - n) * (2 * Real.pi) := by
      field_simp
      ring
    rw [this, abs_mul, abs_of_pos (by linarith : 0 < 2 * Real.pi)]
    have := mul_le_mul_of_nonneg_right hn (by linarith : 0 ≤ 2 * Real.pi)
    linarith
  rw [pointsTo_iff he] at h
  have hc := circle_close t (θ₀ + n * (2 * Real.pi))
  rw [Real.cos_add_int_mul_two_pi, Real.sin_add_int_mul_two_pi] at hc
  have h3 : radius x y * (2 * |Real.sin ((t - (θ₀ + n * (2 * Real.pi))) / 2)|) ≤ e := by
    rw [← hc]
    conv_lhs => rw [← abs_of_nonneg (radius_nonneg x y)]
    rw [abs_of_nonneg (radius_nonneg x y)]
    have := radius_scale (radius x y) (Real.cos t - Real.cos θ₀) (Real.sin t - Real.sin θ₀)
    rw [abs_of_nonneg (radius_nonneg x y)] at this
    rw [← this, mul_sub, mul_sub, ← h1, ← h2]
    exact h
  generalize t - (θ₀ + n * (2 * Real.pi)) = δ at *
  have h4 : 2 / Real.pi * |δ / 2| ≤ |Real.sin (δ / 2)| := by
    apply Real.mul_abs_le_abs_sin
    rw [abs_div, abs_two]
    linarith
  rw [abs_div, abs_two] at h4
  have h5 : |Real.sin (δ / 2)| ≤ e / radius x y / 2 := by
    rw [div_div, le_div_iff₀ (by positivity)]
    linarith
  have h6 : 2 / Real.pi * (|δ| / 2) ≤ e / radius x y / 2 := h4.trans h5
  have h7 : |δ| = Real.pi * (2 / Real.pi * (|δ| / 2)) := by field_simp
  rw [h7]
  have := mul_le_mul_of_nonneg_left h6 hp.le
  linarith

/-- The angle itself, where it is known to be less than a right angle. -/
theorem angle_recover {t r θ e : ℝ} (hr : 0 < r) (hθ : |θ| ≤ Real.pi / 2) (h : PointsTo t (r * Real.cos θ) (r * Real.sin θ) e) (he : 0 ≤ e)
    (ht : |t| ≤ Real.pi + 1 / 1000) (hs : Real.pi / 2 * (e / r) ≤ 1) : |t - θ| ≤ Real.pi / 2 * (e / r) := by
  have er := radius_polar hr.le θ
  obtain ⟨φ, ⟨h1, h2⟩, h3⟩ := pointsTo_angle h he (by rw [er]; exact hr)
  rw [er] at h1 h2 h3
  have c : Real.cos θ = Real.cos φ := mul_left_cancel₀ hr.ne' h1
  have s : Real.sin θ = Real.sin φ := mul_left_cancel₀ hr.ne' h2
  have hc : Real.cos (φ - θ) = 1 := by
    rw [Real.cos_sub, c, s]
    nlinarith [Real.sin_sq_add_cos_sq φ]
  obtain ⟨n, hn⟩ := (Real.cos_eq_one_iff _).1 hc
  have hp := Real.pi_gt_three
  obtain ⟨t1, t2⟩ := abs_le.1 ht
  obtain ⟨a1, a2⟩ := abs_le.1 hθ
  obtain ⟨b1, b2⟩ := abs_le.1 (h3.trans hs)
  have n0 : n = 0 := by
    have l : (n : ℝ) < 1 := by
      by_contra hc'
      have := mul_le_mul_of_nonneg_right (not_lt.1 hc') (by linarith : 0 ≤ 2 * Real.pi)
      linarith
    have g : (-1 : ℝ) < n := by
      by_contra hc'
      have := mul_le_mul_of_nonneg_right (not_lt.1 hc') (by linarith : 0 ≤ 2 * Real.pi)
      linarith
    have l' : n < 1 := by exact_mod_cast l
    have g' : -1 < n := by exact_mod_cast g
    omega
  rw [n0] at hn
  have : φ = θ := by push_cast at hn; linarith
  rw [← this]
  exact h3

/-! ### Rounding -/

/-- The two numbers that are given to `atan2`. -/
theorem heading_close {f : Fmt} (hf : f = .double ∨ f = .single) {fp fq fr fs ft fw : Flt} {p q r s t w : ℝ} (hp : StandsReal f fp p) (hq : StandsReal f fq q)
    (hr : StandsReal f fr r) (hs : StandsReal f fs s) (ht : StandsReal f ft t) (hw : StandsReal f fw w) (h1 : 2 * |p * q| + 2 * |r * w| ≤ 101 / 100)
    (h2 : 2 * s ^ 2 + 2 * t ^ 2 ≤ 202 / 100) (bp : |p| ≤ 2) (br : |r| ≤ 2) :
    (∃ y, StandsReal f (f.add (f.mul (f.mul (.fin false 2) fp) fq) (f.mul (f.mul (.fin false 2) fr) fw)) y ∧
      |y - (2 * (p * q) + 2 * (r * w))| ≤ 21 / 10 * (1 / 2 ^ f.prec)) ∧
    (∃ x, StandsReal f (f.sub (.fin false 1) (f.add (f.mul (f.mul (.fin false 2) fs) fs) (f.mul (f.mul (.fin false 2) ft) ft))) x ∧
      |x - (1 - (2 * s ^ 2 + 2 * t ^ 2))| ≤ 52 / 10 * (1 / 2 ^ f.prec)) := by
  obtain ⟨hu0, hu, hn0, hn', hM⟩ := real_consts hf
  have hsm := emin_small hf
  have hM1 : (100 : ℝ) ≤ f.maxVal := le_trans (by norm_num) hM
  have dbl : ∀ {fx : Flt} {x : ℝ}, StandsReal f fx x → |x| ≤ 2 → StandsReal f (f.mul (.fin false 2) fx) (2 * x) := by
    intro fx x hx hb
    refine double_real hf hx ?_
    rw [abs_mul, abs_two]
    linarith
  constructor
  · have b1 : |2 * p * q| = 2 * |p * q| := by rw [mul_assoc, abs_mul, abs_two]
    have b2 : |2 * r * w| = 2 * |r * w| := by rw [mul_assoc, abs_mul, abs_two]
    have n1 := abs_nonneg (p * q)
    have n2 := abs_nonneg (r * w)
    obtain ⟨m1, sm1, em1⟩ := mul_real hf (dbl hp bp) hq (by rw [b1]; linarith)
    obtain ⟨m2, sm2, em2⟩ := mul_real hf (dbl hr br) hw (by rw [b2]; linarith)
    rw [b1] at em1
    rw [b2] at em2
    have e12 : |m1 + m2 - (2 * (p * q) + 2 * (r * w))| ≤ 102 / 100 * (1 / 2 ^ f.prec) := by
      rw [show m1 + m2 - (2 * (p * q) + 2 * (r * w)) = (m1 - 2 * p * q) + (m2 - 2 * r * w) by ring]
      refine (abs_add_le _ _).trans ?_
      have := mul_le_mul_of_nonneg_left h1 hu0.le
      linarith
    have b12 : |m1 + m2| ≤ 102 / 100 := by
      have := abs_sub_abs_le_abs_sub (m1 + m2) (2 * (p * q) + 2 * (r * w))
      have h3 := abs_add_le (2 * (p * q)) (2 * (r * w))
      rw [abs_mul 2 (p * q), abs_mul 2 (r * w), abs_two] at h3
      linarith
    obtain ⟨y, sy, ey⟩ := add_real hf sm1 sm2 (by linarith)
    refine ⟨y, sy, ?_⟩
    have := abs_sub_le y (m1 + m2) (2 * (p * q) + 2 * (r * w))
    have := mul_le_mul_of_nonneg_left b12 hu0.le
    linarith
  · have s0 := sq_nonneg s
    have t0 := sq_nonneg t
    have b1 : |2 * s * s| = 2 * s ^ 2 := by rw [abs_of_nonneg (by nlinarith)]; ring
    have b2 : |2 * t * t| = 2 * t ^ 2 := by rw [abs_of_nonneg (by nlinarith)]; ring
    have bs : |s| ≤ 2 := abs_le_of_sq_le_sq (by linarith) (by norm_num)
    have bt : |t| ≤ 2 := abs_le_of_sq_le_sq (by linarith) (by norm_num)
    obtain ⟨m1, sm1, em1⟩ := mul_real hf (dbl hs bs) hs (by rw [b1]; linarith)
    obtain ⟨m2, sm2, em2⟩ := mul_real hf (dbl ht bt) ht (by rw [b2]; linarith)
    rw [b1] at em1
    rw [b2] at em2
    have e12 : |m1 + m2 - (2 * s ^ 2 + 2 * t ^ 2)| ≤ 2022 / 1000 * (1 / 2 ^ f.prec) := by
      rw [show m1 + m2 - (2 * s ^ 2 + 2 * t ^ 2) = (m1 - 2 * s * s) + (m2 - 2 * t * t) by ring]
      refine (abs_add_le _ _).trans ?_
      have := mul_le_mul_of_nonneg_left h2 hu0.le
      linarith
    have b12 : |m1 + m2| ≤ 203 / 100 := by
      have := abs_sub_abs_le_abs_sub (m1 + m2) (2 * s ^ 2 + 2 * t ^ 2)
      have h3 := abs_of_nonneg (by linarith : 0 ≤ 2 * s ^ 2 + 2 * t ^ 2)
      linarith
    obtain ⟨y, sy, ey⟩ := add_real hf sm1 sm2 (by linarith)
    have ey' : |y - (2 * s ^ 2 + 2 * t ^ 2)| ≤ 406 / 100 * (1 / 2 ^ f.prec) := by
      have := abs_sub_le y (m1 + m2) (2 * s ^ 2 + 2 * t ^ 2)
      have := mul_le_mul_of_nonneg_left b12 hu0.le
      linarith
    have by1 : |1 - y| ≤ 103 / 100 := by
      obtain ⟨g1, g2⟩ := abs_le.1 ey'
      rw [abs_le]
      constructor <;> linarith
    have o1 : StandsReal f (.fin false 1) 1 := ⟨1, one_stands hf, by norm_num⟩
    obtain ⟨x, sx, ex⟩ := sub_real hf o1 sy (by linarith)
    refine ⟨x, sx, ?_⟩
    have t1 := abs_sub_le x (1 - y) (1 - (2 * s ^ 2 + 2 * t ^ 2))
    rw [show 1 - y - (1 - (2 * s ^ 2 + 2 * t ^ 2)) = -(y - (2 * s ^ 2 + 2 * t ^ 2)) by ring, abs_neg] at t1
    have := mul_le_mul_of_nonneg_left by1 hu0.le
    linarith

end Flut
