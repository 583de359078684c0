import Verif.Props.FloatEuler

/-! # Lemmas about the axis and angle of a quaternion in floating-point arithmetic -/

namespace Flut

open Spec FloatMath Quaternion

/-- A `float` is a `double`. -/
theorem single_double {x : Flt} {a : ℚ} (h : Stands .single x a) : Stands .double x a := by
  obtain ⟨s, m, rfl, rfl⟩ := h.fin
  obtain ⟨⟨h0, h1, n, e, h2, h3, h4⟩, h5⟩ := h
  refine ⟨⟨h0, h1.trans (by decide +kernel), n, e, h2.trans (by norm_num [Fmt.single, Fmt.double]), ?_, h4⟩, h5⟩
  exact le_trans (by decide) h3

/-- Conversion to `float`. -/
theorem toFloat_close {f : Fmt} (hf : f = .double ∨ f = .single) {x : Flt} {a : ℝ} (hx : StandsReal f x a) (ha : |a| ≤ 11 / 10) :
    ∃ b, StandsReal f (toFloat x) b ∧ |b - a| ≤ if f = .double then 12 / 10 / 2 ^ 24 else 0 := by
  have hs : Fmt.single = .double ∨ Fmt.single = .single := .inr rfl
  obtain ⟨a, sa, rfl⟩ := hx
  obtain ⟨s, m, rfl, rfl⟩ := sa.fin
  have hv : (if s = true then -m else m) = (Flt.fin s m).val := rfl
  have hb : |(Flt.fin s m).val| ≤ Fmt.single.maxVal := by
    have : ((|(Flt.fin s m).val| : ℚ) : ℝ) ≤ ((11 / 10 : ℚ) : ℝ) := by push_cast; exact ha
    have : |(Flt.fin s m).val| ≤ 11 / 10 := by exact_mod_cast this
    exact this.trans (by decide +kernel)
  have hr := result_stands hs s hb
  rw [show toFloat (.fin s m) = Fmt.single.result s (Flt.fin s m).val from rfl]
  generalize (Flt.fin s m).val = q at *
  rcases hf with rfl | rfl
  · refine ⟨_, ⟨_, single_double hr, rfl⟩, ?_⟩
    have e : ((|Fmt.single.srnd q - q| : ℚ) : ℝ) ≤ ((|q| / 2 ^ Fmt.single.prec + 2 ^ Fmt.single.emin / 2 : ℚ) : ℝ) := by exact_mod_cast srnd_err (f := .single) q
    push_cast at e
    rw [if_pos rfl]
    have k := emin_small hs
    rw [show Fmt.single.prec = 24 from rfl] at *
    refine e.trans ?_
    have : |(q : ℝ)| / 2 ^ 24 ≤ 11 / 10 / 2 ^ 24 := by gcongr
    linarith
  · refine ⟨_, ⟨_, hr, rfl⟩, ?_⟩
    rw [Fmt.srnd_self (by decide) sa.binary, sub_self, abs_zero]
    split_ifs <;> norm_num

/-- The imaginary part of a quaternion. -/
theorem stands_im {f : Fmt} {q : Quat Flt} {Q : ℍ[ℝ]} (h : StandsQuat f q Q) : StandsVec f ⟨q.x, q.y, q.z⟩ Q.im :=
  ⟨by simp, by simpa using h.2.1, by simpa using h.2.2.1, by simpa using h.2.2.2⟩

/-- The length of a vector and the direction of its parts. -/
theorem normalize_real {f : Fmt} (hf : f = .double ∨ f = .single) {v : Vec3 Flt} {V : ℍ[ℝ]} (hv : StandsVec f v V) (hb : ‖V‖ ^ 2 ≤ f.maxVal / 2) :
    (4 * ‖V‖ ^ 2 ≤ (2 / 2 ^ f.prec) ^ 2 → (epsilon f).lt (length f v) = false) ∧
    (2 * (2 / 2 ^ f.prec) ^ 2 ≤ ‖V‖ ^ 2 → (epsilon f).lt (length f v) = true ∧
      (∃ l, StandsReal f (length f v) l ∧ |l - ‖V‖| ≤ 3 / 2 ^ f.prec * ‖V‖) ∧
      (∃ x, StandsReal f (normalizedMember f v).x x ∧ |x - V.imI / ‖V‖| ≤ 501 / 100 * (1 / 2 ^ f.prec)) ∧
      (∃ y, StandsReal f (normalizedMember f v).y y ∧ |y - V.imJ / ‖V‖| ≤ 501 / 100 * (1 / 2 ^ f.prec)) ∧
      ∃ z, StandsReal f (normalizedMember f v).z z ∧ |z - V.imK / ‖V‖| ≤ 501 / 100 * (1 / 2 ^ f.prec)) := by
  obtain ⟨hu0, hu, hn0, hn', hM⟩ := real_consts hf
  have hsm := emin_small hf
  obtain ⟨h0, ⟨a, sa, ea⟩, ⟨b, sb, eb⟩, ⟨c, sc, ec⟩⟩ := hv
  have n := norm_sq4 V
  rw [h0, ea, eb, ec] at n
  have n' : ‖V‖ ^ 2 = ((a ^ 2 + b ^ 2 + c ^ 2 : ℚ) : ℝ) := by push_cast; linarith
  have nr : √((a : ℝ) ^ 2 + (b : ℝ) ^ 2 + (c : ℝ) ^ 2) = ‖V‖ := by
    rw [← Real.sqrt_sq (norm_nonneg V), n']; push_cast; rfl
  have ep : ((2 / 2 ^ f.prec) ^ 2 : ℝ) = (((2 ^ (1 - (f.prec : Int))) ^ 2 : ℚ) : ℝ) := by
    push_cast
    rw [zpow_sub₀ (by norm_num), zpow_one, zpow_natCast]
  have hb' : a ^ 2 + b ^ 2 + c ^ 2 ≤ f.maxVal / 2 := by
    rw [n'] at hb
    have : ((a ^ 2 + b ^ 2 + c ^ 2 : ℚ) : ℝ) ≤ ((f.maxVal / 2 : ℚ) : ℝ) := by push_cast at *; linarith
    exact_mod_cast this
  refine ⟨fun h => ?_, fun h => ?_⟩
  · rw [n', ep] at h
    exact length_short hf sa sb sc (by exact_mod_cast h)
  · rw [n', ep] at h
    have h' : 2 * (2 ^ (1 - (f.prec : Int))) ^ 2 ≤ a ^ 2 + b ^ 2 + c ^ 2 := by exact_mod_cast h
    have c1 : 2 ^ (f.prec + 10) * 2 ^ f.emin ≤ (2 ^ (1 - (f.prec : Int)) : ℚ) ^ 2 / 4 := by rcases hf with rfl | rfl <;> decide +kernel
    have c2 : (0 : ℚ) ≤ (2 ^ (1 - (f.prec : Int))) ^ 2 := by positivity
    have h'' : 2 ^ (f.prec + 10) * 2 ^ f.emin ≤ a ^ 2 + b ^ 2 + c ^ 2 := by linarith
    refine ⟨length_long hf sa sb sc hb' h', ?_, ?_⟩
    · obtain ⟨l, sl, el⟩ := C111_length f hf v a b c sa sb sc hb' h''
      rw [nr] at el
      exact ⟨l, ⟨l, sl, rfl⟩, el⟩
    · obtain ⟨x, y, z, sx, sy, sz, ⟨e1, e2, e3⟩, _⟩ := normalize_unit hf sa sb sc hb' h''
      rw [nr] at e1 e2 e3
      have hV : 0 < ‖V‖ := by
        have : (0 : ℝ) < (2 / 2 ^ f.prec) ^ 2 := by positivity
        rw [← ep, ← n'] at h
        by_contra hc
        have : ‖V‖ = 0 := le_antisymm (not_lt.1 hc) (norm_nonneg _)
        rw [this] at h
        norm_num at h
        linarith [(by positivity : (0 : ℝ) < 2 * (2 ^ 2 / (2 ^ f.prec) ^ 2))]
      obtain ⟨_, i1, i2, i3⟩ := abs_le_norm V
      have key : ∀ {x r : ℝ}, |r| ≤ ‖V‖ → |x - r / ‖V‖| ≤ 5 / 2 ^ f.prec * (|r| / ‖V‖) + 2 ^ f.emin → |x - r / ‖V‖| ≤ 501 / 100 * (1 / 2 ^ f.prec) := by
        intro x r hr hx
        have : |r| / ‖V‖ ≤ 1 := (div_le_one hV).2 hr
        have : 5 / 2 ^ f.prec * (|r| / ‖V‖) ≤ 5 / 2 ^ f.prec * 1 := mul_le_mul_of_nonneg_left this (by positivity)
        rw [show (5 : ℝ) / 2 ^ f.prec * 1 = 5 * (1 / 2 ^ f.prec) by ring] at this
        linarith
      rw [← ea] at e1
      rw [← eb] at e2
      rw [← ec] at e3
      exact ⟨⟨x, ⟨x, sx, rfl⟩, key i1 e1⟩, ⟨y, ⟨y, sy, rfl⟩, key i2 e2⟩, ⟨z, ⟨z, sz, rfl⟩, key i3 e3⟩⟩

theorem quatAxisAngle_eq (f : Fmt) (L : Libm) (q : Quat Flt) : quatAxisAngle f L q =
    if (epsilon f).lt (length f ⟨q.x, q.y, q.z⟩) then
      (⟨toFloat (normalizedMember f ⟨q.x, q.y, q.z⟩).x, toFloat (normalizedMember f ⟨q.x, q.y, q.z⟩).y, toFloat (normalizedMember f ⟨q.x, q.y, q.z⟩).z⟩,
       f.mul (.fin false 2) (L.acos q.w))
    else (⟨.fin false 1, .fin false 0, .fin false 0⟩, .fin false 0) := by
  unfold quatAxisAngle normalizedMember
  simp only [f.mul_comm _ (f.div _ _), inv]
  rfl

/-- Sines that have nearly the same square. -/
theorem sineSquares_close {x y η D : ℝ} (hy : 0 ≤ y) (hx : -η ≤ x) (hη : 0 ≤ η) (h : |x ^ 2 - y ^ 2| ≤ D) : |x - y| ≤ √(D + η ^ 2) + η := by
  have hD : 0 ≤ D := (abs_nonneg _).trans h
  obtain ⟨h1, h2⟩ := abs_le.1 h
  by_cases h0 : 0 ≤ x
  · have : |x - y| ≤ √(D + η ^ 2) := by
      apply Real.le_sqrt_of_sq_le
      rw [sq_abs]
      rcases le_total x y with k | k <;> nlinarith [sq_nonneg η]
    linarith
  · have k : y ≤ √(D + η ^ 2) := by
      apply Real.le_sqrt_of_sq_le
      nlinarith
    rw [abs_le]
    constructor <;> linarith [Real.sqrt_nonneg (D + η ^ 2)]

theorem quatRotationVector_eq (f : Fmt) (L : Libm) (q : Quat Flt) : quatRotationVector f L q =
    if (epsilon f).lt (length f ⟨q.x, q.y, q.z⟩) then
      (let r := f.div (f.mul (.fin false 2) (L.acos q.w)) (length f ⟨q.x, q.y, q.z⟩)
       ⟨f.mul r q.x, f.mul r q.y, f.mul r q.z⟩)
    else ⟨.fin false 0, .fin false 0, .fin false 0⟩ := rfl

/-- The factor of the parts: the angle divided by the length. -/
theorem factor_close {f : Fmt} (hf : f = .double ∨ f = .single) {x y : Flt} {t l n : ℝ} (hx : StandsReal f x t) (hy : StandsReal f y l)
    (ht : |t| ≤ 64 / 10) (hl : |l - n| ≤ 3 / 2 ^ f.prec * n) (hn : 2 / 2 ^ f.prec ≤ n) :
    ∃ r, StandsReal f (f.div x y) r ∧ |r * n - t| ≤ 259 / 10 * (1 / 2 ^ f.prec) + n * (1 / 2 ^ f.prec) := by
  obtain ⟨hu0, hu, hn0, hn', hM⟩ := real_consts hf
  have hsm := emin_small hf
  have hpr : (1 : ℝ) ≤ 1 / 2 ^ f.prec * 2 ^ f.prec := by rw [one_div, inv_mul_cancel₀ (by positivity)]
  rw [show (2 : ℝ) / 2 ^ f.prec = 2 * (1 / 2 ^ f.prec) by ring] at hn
  rw [show (3 : ℝ) / 2 ^ f.prec * n = 3 * (1 / 2 ^ f.prec) * n by ring] at hl
  have n0 : 0 < n := by linarith
  have l1 : |l - n| ≤ 1 / 1000 * n := hl.trans (mul_le_mul_of_nonneg_right (by linarith) n0.le)
  obtain ⟨l2, l3⟩ := abs_le.1 l1
  have l0 : 0 < l := by linarith
  have big : (2 : ℝ) ^ f.prec ≤ 10 ^ 16 := by rcases hf with rfl | rfl <;> norm_num [Fmt.double, Fmt.single]
  have hq : |t / l| ≤ f.maxVal := by
    rw [abs_div, abs_of_pos l0, div_le_iff₀ l0]
    have : 1 / 2 ^ f.prec ≤ l := by linarith
    have h1 : 10 ^ 20 * (1 / 2 ^ f.prec) ≤ f.maxVal * l := mul_le_mul (le_trans (by norm_num) hM) this hu0.le (by linarith)
    have h2 : (10 ^ 20 : ℝ) * (1 / 2 ^ f.prec) ≥ 10 ^ 4 := by
      rw [ge_iff_le, mul_one_div, le_div_iff₀ (by positivity)]
      calc (10 : ℝ) ^ 4 * 2 ^ f.prec ≤ 10 ^ 4 * 10 ^ 16 := by gcongr
        _ = 10 ^ 20 := by norm_num
    linarith
  obtain ⟨r, sr, er⟩ := div_real hf hx hy l0.ne' hq
  refine ⟨r, sr, ?_⟩
  have tl : |t / l| * n ≤ 641 / 100 := by
    rw [abs_div, abs_of_pos l0, div_mul_eq_mul_div, div_le_iff₀ l0]
    have := mul_le_mul_of_nonneg_right ht n0.le
    linarith
  have e1 : |r * n - t / l * n| ≤ 642 / 100 * (1 / 2 ^ f.prec) + n * (1 / 2 ^ f.prec) := by
    rw [← sub_mul, abs_mul, abs_of_pos n0]
    have h1 := mul_le_mul_of_nonneg_right er n0.le
    have h2 := mul_le_mul_of_nonneg_left tl hu0.le
    have h3 : 2 ^ f.emin / 2 * n ≤ 1 / 2 ^ f.prec * n := mul_le_mul_of_nonneg_right (by linarith) n0.le
    rw [add_mul, mul_assoc] at h1
    linarith
  have e2 : |t / l * n - t| ≤ 1945 / 100 * (1 / 2 ^ f.prec) := by
    rw [show t / l * n - t = t / l * (n - l) by field_simp, abs_mul, abs_sub_comm]
    have h1 := mul_le_mul_of_nonneg_left hl (abs_nonneg (t / l))
    have h2 := mul_le_mul_of_nonneg_left tl hu0.le
    linarith
  have := abs_sub_le (r * n) (t / l * n) t
  linarith

/-- One part of the rotation vector. -/
theorem part_close {f : Fmt} (hf : f = .double ∨ f = .single) {x y : Flt} {r a n t θ κ : ℝ} (hx : StandsReal f x r) (hy : StandsReal f y a)
    (hr : |r * n - t| ≤ 259 / 10 * (1 / 2 ^ f.prec) + n * (1 / 2 ^ f.prec)) (ha : |a| ≤ n) (h0 : 0 < n) (hn : n ≤ 1001 / 1000)
    (ht : |t| ≤ 64 / 10) (hθ : |t - θ| ≤ κ) :
    ∃ p, StandsReal f (f.mul x y) p ∧ |p - θ * (a / n)| ≤ κ + 34 * (1 / 2 ^ f.prec) := by
  obtain ⟨hu0, hu, hn0, hn', hM⟩ := real_consts hf
  have hsm := emin_small hf
  have hM1 : (100 : ℝ) ≤ f.maxVal := le_trans (by norm_num) hM
  have han : |a / n| ≤ 1 := by rw [abs_div, abs_of_pos h0]; exact (div_le_one h0).2 ha
  have hr' : |r * n - t| ≤ 27 * (1 / 2 ^ f.prec) := by
    have := mul_le_mul_of_nonneg_right hn hu0.le
    linarith
  have e0 : r * a = r * n * (a / n) := by field_simp
  have hrn : |r * n| ≤ 641 / 100 := by
    have := abs_add_le (r * n - t) t
    rw [sub_add_cancel] at this
    linarith
  have hra : |r * a| ≤ 641 / 100 := by
    rw [e0, abs_mul]
    exact (mul_le_mul hrn han (abs_nonneg _) (by norm_num)).trans (by norm_num)
  obtain ⟨p, sp, ep⟩ := mul_real hf hx hy (by linarith)
  refine ⟨p, sp, ?_⟩
  have h1 := mul_le_mul_of_nonneg_left hra hu0.le
  have h2 : |r * a - θ * (a / n)| ≤ 27 * (1 / 2 ^ f.prec) + κ := by
    rw [e0, ← sub_mul, abs_mul]
    have h3 : |r * n - θ| ≤ 27 * (1 / 2 ^ f.prec) + κ := by
      have := abs_sub_le (r * n) t θ
      linarith
    exact (mul_le_mul h3 han (abs_nonneg _) ((abs_nonneg _).trans h3)).trans (by rw [mul_one])
  have := abs_sub_le p (r * a) (θ * (a / n))
  linarith

end Flut
