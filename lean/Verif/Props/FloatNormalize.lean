import Verif.Props.FloatLength
import Verif.Props.FloatEquals

/-! # Property theorems: normalising in floating-point arithmetic (C112) -/

namespace Flut

open Spec FloatMath

/-- Twice a unit: the threshold of `normalize`. -/
theorem epsilon_stands {f : Fmt} (hf : f = .double ∨ f = .single) : Stands f (epsilon f) (2 ^ (1 - (f.prec : Int))) := by
  refine ⟨⟨by positivity, by rcases hf with rfl | rfl <;> decide +kernel, 1, 1 - (f.prec : Int), ?_, ?_, by simp⟩, rfl⟩
  · rw [abs_one]; exact one_lt_pow₀ (by norm_num) (by have := prec_pos hf; omega)
  · rcases hf with rfl | rfl <;> decide

/-- `v'` is a vector of length one in the direction of `( a, b, c )`: every component is right to five units, and the square of the
length is right to ten. -/
def UnitVector (f : Fmt) (a b c : ℚ) (v' : Vec3 Flt) : Prop :=
  ∃ x y z : ℚ, Stands f v'.x x ∧ Stands f v'.y y ∧ Stands f v'.z z ∧
    (let L : ℝ := √((a : ℝ) ^ 2 + (b : ℝ) ^ 2 + (c : ℝ) ^ 2)
     |(x : ℝ) - a / L| ≤ 5 / 2 ^ f.prec * (|(a : ℝ)| / L) + 2 ^ f.emin ∧
     |(y : ℝ) - b / L| ≤ 5 / 2 ^ f.prec * (|(b : ℝ)| / L) + 2 ^ f.emin ∧
     |(z : ℝ) - c / L| ≤ 5 / 2 ^ f.prec * (|(c : ℝ)| / L) + 2 ^ f.emin) ∧
    |x ^ 2 + y ^ 2 + z ^ 2 - 1| ≤ 10 / 2 ^ f.prec

/-- The square of a number that is nearly `t`. -/
theorem square_close {x t κ h : ℝ} (ht : |t| ≤ 1) (hκ0 : 0 ≤ κ) (hκ : κ ≤ 1 / 1000000) (h0 : 0 ≤ h) (h1 : h ≤ 1 / 1000000)
    (hx : |x - t| ≤ κ * |t| + h) : |x ^ 2 - t ^ 2| ≤ 2001 / 1000 * κ * t ^ 2 + 3 * h := by
  have e : x ^ 2 - t ^ 2 = (x - t) * (x - t + 2 * t) := by ring
  have ht0 := abs_nonneg t
  have d0 := abs_nonneg (x - t)
  have d1 : |x - t + 2 * t| ≤ |x - t| + 2 * |t| := by
    have := abs_add_le (x - t) (2 * t)
    rwa [abs_mul, abs_of_pos (by norm_num : (0 : ℝ) < 2)] at this
  rw [e, abs_mul]
  have d2 : |x - t| * |x - t + 2 * t| ≤ (κ * |t| + h) * (κ * |t| + h + 2 * |t|) := by
    apply mul_le_mul hx (by linarith) (abs_nonneg _) (by positivity)
  refine d2.trans ?_
  rw [← sq_abs t]
  have a1 : κ * κ * (|t| * |t|) ≤ 1 / 1000000 * (κ * (|t| * |t|)) := by
    have := mul_le_mul_of_nonneg_right hκ (by positivity : 0 ≤ κ * (|t| * |t|))
    linarith
  have a2 : h * h ≤ 1 / 1000000 * h := mul_le_mul_of_nonneg_right h1 h0
  have a3 : κ * |t| * h ≤ 1 / 1000000 * h := by
    apply mul_le_mul_of_nonneg_right _ h0
    nlinarith
  have a4 : |t| * h ≤ 1 * h := mul_le_mul_of_nonneg_right ht h0
  have a5 : 0 ≤ κ * (|t| * |t|) := by positivity
  nlinarith

theorem comp_le {a b c : ℝ} : |a| ≤ √(a ^ 2 + b ^ 2 + c ^ 2) := by
  apply Real.abs_le_sqrt
  nlinarith [sq_nonneg b, sq_nonneg c]

/-- Scaling with the inverse of the computed length. -/
theorem normalize_unit {f : Fmt} (hf : f = .double ∨ f = .single) {v : Vec3 Flt} {a b c : ℚ} (hx : Stands f v.x a)
    (hy : Stands f v.y b) (hz : Stands f v.z c) (h : a ^ 2 + b ^ 2 + c ^ 2 ≤ f.maxVal / 2)
    (h' : 2 ^ (f.prec + 10) * 2 ^ f.emin ≤ a ^ 2 + b ^ 2 + c ^ 2) : UnitVector f a b c (normalizedMember f v) := by
  obtain ⟨l, _, hl, he⟩ := length_err hf hx hy hz h h'
  obtain ⟨h24, hn0, hn, hM⟩ := fmt_consts hf
  have hS0 : 0 < a ^ 2 + b ^ 2 + c ^ 2 := lt_of_lt_of_le (by positivity) h'
  have hSR : (0 : ℝ) < ((a ^ 2 + b ^ 2 + c ^ 2 : ℚ) : ℝ) := by exact_mod_cast hS0
  have hP := prec_real hf
  have hL := Real.sqrt_pos.2 hSR
  have hLL := Real.mul_self_sqrt hSR.le
  have hb := abs_le.1 he
  have hu : √((a ^ 2 + b ^ 2 + c ^ 2 : ℚ) : ℝ) / 2 ^ f.prec ≤ √((a ^ 2 + b ^ 2 + c ^ 2 : ℚ) : ℝ) / 16777216 :=
    div_le_div_of_nonneg_left hL.le (by norm_num) hP
  have hl0 : (0 : ℝ) < l := by linarith
  have hl0' : 0 < l := by exact_mod_cast hl0
  have b1 : l * l ≤ 2 * f.maxVal := by
    have : (l : ℝ) * l ≤ 2 * ((a ^ 2 + b ^ 2 + c ^ 2 : ℚ) : ℝ) := by nlinarith
    have : ((l * l : ℚ) : ℝ) ≤ ((2 * (a ^ 2 + b ^ 2 + c ^ 2) : ℚ) : ℝ) := by push_cast at this ⊢; exact this
    have : l * l ≤ 2 * (a ^ 2 + b ^ 2 + c ^ 2) := by exact_mod_cast this
    linarith [maxVal_pos hf]
  have b2 : 2 ^ f.emin / 4 ≤ l * l := by
    have : ((a ^ 2 + b ^ 2 + c ^ 2 : ℚ) : ℝ) / 4 ≤ l * l := by nlinarith
    have : (((a ^ 2 + b ^ 2 + c ^ 2) / 4 : ℚ) : ℝ) ≤ ((l * l : ℚ) : ℝ) := by push_cast at this ⊢; exact this
    have : (a ^ 2 + b ^ 2 + c ^ 2) / 4 ≤ l * l := by exact_mod_cast this
    have h3 : 2 ^ f.emin ≤ a ^ 2 + b ^ 2 + c ^ 2 :=
      le_trans (le_mul_of_one_le_left hn0.le (one_le_pow₀ (by norm_num))) h'
    linarith
  obtain ⟨i, hi, hie⟩ := inv_close hf hl hl0' b1 b2 hL (by norm_num) (by norm_num) he
  push_cast at hL hie hLL
  generalize hLd : √((a : ℝ) ^ 2 + (b : ℝ) ^ 2 + (c : ℝ) ^ 2) = L at *
  have ca : |(a : ℝ)| ≤ L := by rw [← hLd]; exact comp_le
  have cb : |(b : ℝ)| ≤ L := by
    rw [← hLd]; convert comp_le (a := (b : ℝ)) (b := a) (c := c) using 2; ring
  have cc : |(c : ℝ)| ≤ L := by
    rw [← hLd]; convert comp_le (a := (c : ℝ)) (b := a) (c := b) using 2; ring
  obtain ⟨x, sx, ex⟩ := scale_close hf hx hi hL ca (by norm_num) (by norm_num) hie
  obtain ⟨y, sy, ey⟩ := scale_close hf hy hi hL cb (by norm_num) (by norm_num) hie
  obtain ⟨z, sz, ez⟩ := scale_close hf hz hi hL cc (by norm_num) (by norm_num) hie
  have hη : (0 : ℝ) < 2 ^ f.emin := by positivity
  have hη1 : (2 : ℝ) ^ f.emin ≤ 1 / 2 ^ 100 := by
    have : ((2 ^ f.emin : ℚ) : ℝ) ≤ ((1 / 2 ^ 100 : ℚ) : ℝ) := by exact_mod_cast hn
    push_cast at this; exact this
  have weak : ∀ {x a : ℝ}, |x - a / L| ≤ (254 / 100 + 1001 / 1000 + 1001 / 1000) * (|a| / L / 2 ^ f.prec) + 2 ^ f.emin / 2 →
      |x - a / L| ≤ 5 / 2 ^ f.prec * (|a| / L) + 2 ^ f.emin := by
    intro x a hx
    have e : 5 / 2 ^ f.prec * (|a| / L) = 5 * (|a| / L / 2 ^ f.prec) := by ring
    have : 0 ≤ |a| / L / 2 ^ f.prec := by positivity
    rw [e]; linarith
  refine ⟨x, y, z, sx, sy, sz, ?_, ?_⟩
  · rw [hLd]
    exact ⟨weak ex, weak ey, weak ez⟩
  · have hu1 : 1 / (2 : ℝ) ^ f.prec ≤ 1 / 16777216 := one_div_le_one_div_of_le (by norm_num) hP
    have hu0 : 0 < 1 / (2 : ℝ) ^ f.prec := by positivity
    have sqc : ∀ {x a : ℝ}, |a| ≤ L → |x - a / L| ≤ (254 / 100 + 1001 / 1000 + 1001 / 1000) * (|a| / L / 2 ^ f.prec) + 2 ^ f.emin / 2 →
        |x ^ 2 - (a / L) ^ 2| ≤ 2001 / 1000 * (4542 / 1000 * (1 / 2 ^ f.prec)) * (a / L) ^ 2 + 3 * (2 ^ f.emin / 2) := by
      intro x a ha hx
      have e : |a / L| = |a| / L := by rw [abs_div, abs_of_pos hL]
      apply square_close
      · rw [e]; exact (div_le_one hL).2 ha
      · positivity
      · linarith
      · positivity
      · linarith [(by norm_num : (1 : ℝ) / 2 ^ 100 ≤ 1 / 1000000)]
      · rw [e]
        refine hx.trans (le_of_eq ?_)
        ring
    have q1 := sqc ca ex
    have q2 := sqc cb ey
    have q3 := sqc cc ez
    have one : ((a : ℝ) / L) ^ 2 + ((b : ℝ) / L) ^ 2 + ((c : ℝ) / L) ^ 2 = 1 := by
      rw [div_pow, div_pow, div_pow, ← add_div, ← add_div, div_eq_one_iff_eq (by positivity), sq L]
      exact hLL.symm
    have t := abs_add_three ((x : ℝ) ^ 2 - (a / L) ^ 2) ((y : ℝ) ^ 2 - (b / L) ^ 2) ((z : ℝ) ^ 2 - (c / L) ^ 2)
    have e1 : (x : ℝ) ^ 2 - (a / L) ^ 2 + ((y : ℝ) ^ 2 - (b / L) ^ 2) + ((z : ℝ) ^ 2 - (c / L) ^ 2) = x ^ 2 + y ^ 2 + z ^ 2 - 1 := by
      rw [← one]; ring
    rw [e1] at t
    have hη2 : (2 : ℝ) ^ f.emin ≤ 1 / 100 * (1 / 2 ^ f.prec) := by
      have : (2 : ℚ) ^ f.emin ≤ 1 / 100 * (1 / 2 ^ f.prec) := by rcases hf with rfl | rfl <;> decide +kernel
      have : ((2 ^ f.emin : ℚ) : ℝ) ≤ ((1 / 100 * (1 / 2 ^ f.prec) : ℚ) : ℝ) := by exact_mod_cast this
      push_cast at this; exact this
    have e2 : 2001 / 1000 * (4542 / 1000 * (1 / (2 : ℝ) ^ f.prec)) * ((a : ℝ) / L) ^ 2 +
        2001 / 1000 * (4542 / 1000 * (1 / 2 ^ f.prec)) * ((b : ℝ) / L) ^ 2 +
        2001 / 1000 * (4542 / 1000 * (1 / 2 ^ f.prec)) * ((c : ℝ) / L) ^ 2 = 2001 / 1000 * (4542 / 1000 * (1 / 2 ^ f.prec)) := by
      rw [← mul_add, ← mul_add, one, mul_one]
    have fin : |(x : ℝ) ^ 2 + y ^ 2 + z ^ 2 - 1| ≤ 10 / 2 ^ f.prec := by
      rw [div_eq_mul_one_div (10 : ℝ)]
      linarith
    have : ((|x ^ 2 + y ^ 2 + z ^ 2 - 1| : ℚ) : ℝ) ≤ ((10 / 2 ^ f.prec : ℚ) : ℝ) := by push_cast; exact fin
    exact_mod_cast this

theorem normalize_eq (f : Fmt) (v : Vec3 Flt) :
    normalize f v = if (epsilon f).lt (length f v) then normalizedMember f v else v := rfl

/-- The computed length of a short vector is not above the threshold. -/
theorem length_short {f : Fmt} (hf : f = .double ∨ f = .single) {v : Vec3 Flt} {a b c : ℚ} (hx : Stands f v.x a)
    (hy : Stands f v.y b) (hz : Stands f v.z c) (h : 4 * (a ^ 2 + b ^ 2 + c ^ 2) ≤ (2 ^ (1 - (f.prec : Int))) ^ 2) :
    (epsilon f).lt (length f v) = false := by
  have hE := epsilon_stands hf
  obtain ⟨h24, hn0, hn, hM⟩ := fmt_consts hf
  have c1 : (2 ^ (1 - (f.prec : Int)) : ℚ) ^ 2 ≤ f.maxVal := by rcases hf with rfl | rfl <;> decide +kernel
  have c2 : 3 * 2 ^ f.emin ≤ (2 ^ (1 - (f.prec : Int)) : ℚ) ^ 2 / 4 := by rcases hf with rfl | rfl <;> decide +kernel
  have hS0 : 0 ≤ a ^ 2 + b ^ 2 + c ^ 2 := by positivity
  have hEp : (0 : ℚ) < 2 ^ (1 - (f.prec : Int)) := by positivity
  have e : |a * a| + |b * b| + |c * c| = a ^ 2 + b ^ 2 + c ^ 2 := by
    rw [abs_mul_self, abs_mul_self, abs_mul_self]; ring
  obtain ⟨r, hr⟩ := sum3_acc hf hx hy hz hx hy hz (by rw [e]; linarith)
  rw [e, ← sq, ← sq, ← sq] at hr
  have hr1 : r ≤ (2 ^ (1 - (f.prec : Int))) ^ 2 := by
    have := (abs_le.1 hr.err).2
    have : (a ^ 2 + b ^ 2 + c ^ 2) / 2 ^ f.prec ≤ (a ^ 2 + b ^ 2 + c ^ 2) / 4 := by
      apply div_le_div_of_nonneg_left hS0 (by norm_num)
      norm_num at h24; linarith
    linarith
  have num : ∀ {x : Flt} {a : ℚ}, Stands f x a → IsNumber x := fun h => ⟨_, h.2⟩
  have hN : NonNeg (f.add (f.add (f.mul v.x v.x) (f.mul v.y v.y)) (f.mul v.z v.z)) :=
    ((nonNeg_square (num hx)).add (nonNeg_square (num hy))).add (nonNeg_square (num hz))
  have hl : ∃ l, Stands f (length f v) l ∧ l ≤ 2 ^ (1 - (f.prec : Int)) := by
    rcases lt_trichotomy r 0 with hneg | hzero | hpos
    · exfalso
      have := hN.atMost
      rw [← le_iff, le_stands (zero_stands f hf false) hr.stands] at this
      linarith
    · refine ⟨0, ?_, hEp.le⟩
      rcases hN with ⟨m, _, em⟩ | em
      · have := hr.stands
        rw [em] at this
        obtain ⟨s, m', e1, e2⟩ := this.fin
        cases e1
        rw [hzero] at e2
        simp only [Flt.val, Bool.false_eq_true, if_false] at e2
        subst e2
        unfold length
        rw [em, sqrt_zero]
        exact zero_stands f hf false
      · have := hr.stands
        rw [em] at this
        obtain ⟨s, m', e1, e2⟩ := this.fin
        cases e1
    · obtain ⟨_, h2⟩ := sqrt_stands hf hr.stands hpos
      refine ⟨_, h2, ?_⟩
      by_contra hc
      have h3 := f.rndRoot_nearest hpos.le hE.binary
      have h4 : √(r : ℝ) ≤ ((2 ^ (1 - (f.prec : Int)) : ℚ) : ℝ) := by
        rw [Real.sqrt_le_left (by positivity)]
        exact_mod_cast hr1
      have h5 : ((2 ^ (1 - (f.prec : Int)) : ℚ) : ℝ) < f.rndRoot r := by exact_mod_cast not_le.1 hc
      rw [abs_of_nonneg (by linarith), abs_of_nonneg (by linarith)] at h3
      linarith
  obtain ⟨l, h1, h2⟩ := hl
  rw [← Bool.not_eq_true, lt_stands hE h1]
  exact not_lt.2 h2

/-- The computed length of a vector that is not short is above the threshold. -/
theorem length_long {f : Fmt} (hf : f = .double ∨ f = .single) {v : Vec3 Flt} {a b c : ℚ} (hx : Stands f v.x a)
    (hy : Stands f v.y b) (hz : Stands f v.z c) (hm : a ^ 2 + b ^ 2 + c ^ 2 ≤ f.maxVal / 2)
    (h : 2 * (2 ^ (1 - (f.prec : Int))) ^ 2 ≤ a ^ 2 + b ^ 2 + c ^ 2) :
    (epsilon f).lt (length f v) = true := by
  have hE := epsilon_stands hf
  have c1 : 2 ^ (f.prec + 10) * 2 ^ f.emin ≤ (2 ^ (1 - (f.prec : Int)) : ℚ) ^ 2 := by rcases hf with rfl | rfl <;> decide +kernel
  have hEp : (0 : ℚ) < 2 ^ (1 - (f.prec : Int)) := by positivity
  obtain ⟨l, _, hl, he⟩ := length_err hf hx hy hz hm (by nlinarith)
  rw [lt_stands hE hl]
  have hS : (0 : ℝ) ≤ ((a ^ 2 + b ^ 2 + c ^ 2 : ℚ) : ℝ) := by exact_mod_cast (by positivity : 0 ≤ a ^ 2 + b ^ 2 + c ^ 2)
  have hR : 2 * ((2 ^ (1 - (f.prec : Int)) : ℚ) : ℝ) ^ 2 ≤ ((a ^ 2 + b ^ 2 + c ^ 2 : ℚ) : ℝ) := by exact_mod_cast h
  have hEpR : (0 : ℝ) < ((2 ^ (1 - (f.prec : Int)) : ℚ) : ℝ) := by exact_mod_cast hEp
  have hP := prec_real hf
  have hs0 := Real.sqrt_nonneg ((a ^ 2 + b ^ 2 + c ^ 2 : ℚ) : ℝ)
  have hss := Real.mul_self_sqrt hS
  have hu : √((a ^ 2 + b ^ 2 + c ^ 2 : ℚ) : ℝ) / 2 ^ f.prec ≤ √((a ^ 2 + b ^ 2 + c ^ 2 : ℚ) : ℝ) / 16777216 :=
    div_le_div_of_nonneg_left hs0 (by norm_num) hP
  have hb := (abs_le.1 he).1
  have : ((2 ^ (1 - (f.prec : Int)) : ℚ) : ℝ) < l := by
    generalize ((2 ^ (1 - (f.prec : Int)) : ℚ) : ℝ) = ε at *
    generalize √((a ^ 2 + b ^ 2 + c ^ 2 : ℚ) : ℝ) = s at *
    have : 14 / 10 * ε ≤ s := by
      by_contra hc
      have hc := not_le.1 hc
      have := mul_self_lt_mul_self hs0 hc
      nlinarith
    linarith
  exact_mod_cast this

/-- Normalising a vector of finite components whose squares are not too large. If the length is at most half the threshold (which is the
distance from 1 to the next number), the vector is not changed. If it is above, the result has the direction of the vector and length one, or else the
vector is not changed; and it is the first if the length is one and a half times the threshold. -/
theorem C112_normalize (f : Fmt) (hf : f = .double ∨ f = .single) (v : Vec3 Flt) (a b c : ℚ) (hx : Stands f v.x a)
    (hy : Stands f v.y b) (hz : Stands f v.z c) (h : a ^ 2 + b ^ 2 + c ^ 2 ≤ f.maxVal / 2) :
    (4 * (a ^ 2 + b ^ 2 + c ^ 2) ≤ (2 ^ (1 - (f.prec : Int))) ^ 2 → normalize f v = v) ∧
    ((2 ^ (1 - (f.prec : Int))) ^ 2 < 4 * (a ^ 2 + b ^ 2 + c ^ 2) → normalize f v = v ∨ UnitVector f a b c (normalize f v)) ∧
    (2 * (2 ^ (1 - (f.prec : Int))) ^ 2 ≤ a ^ 2 + b ^ 2 + c ^ 2 → UnitVector f a b c (normalize f v)) := by
  have c1 : 2 ^ (f.prec + 10) * 2 ^ f.emin ≤ (2 ^ (1 - (f.prec : Int)) : ℚ) ^ 2 / 4 := by rcases hf with rfl | rfl <;> decide +kernel
  refine ⟨fun h1 => ?_, fun h1 => ?_, fun h1 => ?_⟩
  · rw [normalize_eq, length_short hf hx hy hz h1]; rfl
  · rw [normalize_eq]
    split_ifs
    · exact .inr (normalize_unit hf hx hy hz h (by linarith))
    · exact .inl rfl
  · rw [normalize_eq, length_long hf hx hy hz h h1, if_pos rfl]
    have : (0 : ℚ) ≤ (2 ^ (1 - (f.prec : Int))) ^ 2 := by positivity
    exact normalize_unit hf hx hy hz h (by linarith)

/-- The member function `normalized()` gives a vector of length one for much shorter vectors, too. -/
theorem C112_member (f : Fmt) (hf : f = .double ∨ f = .single) (v : Vec3 Flt) (a b c : ℚ) (hx : Stands f v.x a)
    (hy : Stands f v.y b) (hz : Stands f v.z c) (h : a ^ 2 + b ^ 2 + c ^ 2 ≤ f.maxVal / 2)
    (h' : 2 ^ (f.prec + 10) * 2 ^ f.emin ≤ a ^ 2 + b ^ 2 + c ^ 2) : UnitVector f a b c (normalizedMember f v) :=
  normalize_unit hf hx hy hz h h'

theorem mul_zero_fin (f : Fmt) (hf : f = .double ∨ f = .single) (s : Bool) (m : ℚ) : f.mul (.fin s m) (.fin false 0) = .fin s 0 := by
  have e : (if (s != false) = true then -(m * 0) else m * 0) = 0 := by cases s <;> simp
  have h := (maxVal_pos hf).le
  simp only [Fmt.mul, e, Fmt.result, abs_zero, f.rnd_zero, if_neg (not_lt.2 h), if_true]
  cases s <;> rfl

/-- A vector with finite components, one of which is too large for its square, becomes the null vector. -/
theorem C112_huge (f : Fmt) (hf : f = .double ∨ f = .single) (sx sy sz : Bool) (mx my mz : ℚ) (hx : IsFloat f (.fin sx mx))
    (hy : IsFloat f (.fin sy my)) (hz : IsFloat f (.fin sz mz)) (h : 2 * f.maxVal ≤ mx ^ 2 ∨ 2 * f.maxVal ≤ my ^ 2 ∨ 2 * f.maxVal ≤ mz ^ 2) :
    normalize f ⟨.fin sx mx, .fin sy my, .fin sz mz⟩ = ⟨.fin sx 0, .fin sy 0, .fin sz 0⟩ := by
  have sq' : ∀ (s : Bool) (m : ℚ), (Flt.fin s m).val ^ 2 = m ^ 2 := by intro s m; cases s <;> simp [Flt.val]
  have hl : length f ⟨.fin sx mx, .fin sy my, .fin sz mz⟩ = .inf false := by
    refine C111_infinite f hf _ ⟨_, rfl⟩ ⟨_, rfl⟩ ⟨_, rfl⟩ ?_
    rcases h with h | h | h
    · exact ⟨.fin sx mx, by simp, .inr ⟨_, stands_fin hx, by rwa [sq']⟩⟩
    · exact ⟨.fin sy my, by simp, .inr ⟨_, stands_fin hy, by rwa [sq']⟩⟩
    · exact ⟨.fin sz mz, by simp, .inr ⟨_, stands_fin hz, by rwa [sq']⟩⟩
  have hE : (epsilon f).lt (.inf false) = true := rfl
  have hi : inv f (.inf false) = .fin false 0 := rfl
  simp only [normalize, hl, hE, if_true, hi, mul_zero_fin f hf]

/-- If a component is not a number the vector is not changed. If a component is infinite and all are numbers, infinite components
become not-a-number and the others become zero. -/
theorem C112_special (f : Fmt) (hf : f = .double ∨ f = .single) (v : Vec3 Flt) :
    (¬ (IsNumber v.x ∧ IsNumber v.y ∧ IsNumber v.z) → normalize f v = v) ∧
    (IsNumber v.x ∧ IsNumber v.y ∧ IsNumber v.z → (∃ x ∈ [v.x, v.y, v.z], ∃ s, x = .inf s) →
      ∀ p ∈ [(v.x, (normalize f v).x), (v.y, (normalize f v).y), (v.z, (normalize f v).z)],
        (∀ s, p.1 = .inf s → p.2 = .nan false) ∧ ∀ s m, p.1 = .fin s m → p.2 = .fin s 0) := by
  constructor
  · intro h
    have := (C111_number f v).2 h
    rw [normalize_eq, this]
    rfl
  · rintro ⟨hx, hy, hz⟩ ⟨x, hm, s, rfl⟩
    have hl := C111_infinite f hf v hx hy hz ⟨_, hm, .inl ⟨s, rfl⟩⟩
    have e : normalize f v = ⟨f.mul v.x (.fin false 0), f.mul v.y (.fin false 0), f.mul v.z (.fin false 0)⟩ := by
      have hE : (epsilon f).lt (.inf false) = true := rfl
      have hi : inv f (.inf false) = .fin false 0 := rfl
      simp only [normalize, hl, hE, if_true, hi]
    have one : ∀ x : Flt, (∀ s, x = .inf s → f.mul x (.fin false 0) = .nan false) ∧
        ∀ s m, x = .fin s m → f.mul x (.fin false 0) = .fin s 0 := by
      intro x
      refine ⟨?_, ?_⟩
      · rintro s rfl; simp [Fmt.mul]
      · rintro s m rfl; exact mul_zero_fin f hf s m
    rw [e]
    intro p hp
    simp only [List.mem_cons, List.not_mem_nil, or_false] at hp
    rcases hp with rfl | rfl | rfl <;> exact one _

/-- Full statement: a vector of finite components that is not null gets length one. -/
def NormalizeRight : Prop := ∀ (v : Vec3 Flt) (a b c : ℚ), Stands .double v.x a → Stands .double v.y b → Stands .double v.z c →
  a ^ 2 + b ^ 2 + c ^ 2 ≠ 0 → UnitVector .double a b c (normalize .double v)

/-- It does not: `( 2^600, 0, 0 )` becomes the null vector, and `( 2^-60, 0, 0 )` is not changed. The member function gives not-a-number
for the null vector. -/
theorem C112_normalize_refuted : ¬ NormalizeRight ∧
    normalize .double ⟨.fin false (2 ^ 600), .fin false 0, .fin false 0⟩ = ⟨.fin false 0, .fin false 0, .fin false 0⟩ ∧
    normalize .double ⟨.fin false (1 / 2 ^ 60), .fin false 0, .fin false 0⟩ = ⟨.fin false (1 / 2 ^ 60), .fin false 0, .fin false 0⟩ ∧
    normalizedMember .double ⟨.fin false 0, .fin false 0, .fin false 0⟩ = ⟨.nan false, .nan false, .nan false⟩ ∧
    normalizedMember .double ⟨.fin false (1 / 2 ^ 600), .fin false 0, .fin false 0⟩ = ⟨.inf false, .nan false, .nan false⟩ := by
  have z := zero_stands .double (.inl rfl) false
  have big : Stands .double (.fin false (2 ^ 600)) (2 ^ 600) :=
    ⟨⟨by positivity, by decide +kernel, pow_binary (.inl rfl) 600⟩, rfl⟩
  have h1 : normalize .double ⟨.fin false (2 ^ 600), .fin false 0, .fin false 0⟩ = ⟨.fin false 0, .fin false 0, .fin false 0⟩ :=
    C112_huge .double (.inl rfl) _ _ _ _ _ _ big.1 z.1 z.1 (.inl (by decide +kernel))
  refine ⟨fun h => ?_, h1, by decide +kernel, by decide +kernel, by decide +kernel⟩
  obtain ⟨x, y, w, hx, hy, hw, _, hs⟩ := h ⟨.fin false (2 ^ 600), .fin false 0, .fin false 0⟩ (2 ^ 600) 0 0 big z z (by norm_num)
  rw [h1] at hx hy hw
  have zero : ∀ {q : ℚ}, Stands .double (.fin false 0) q → q = 0 := by
    intro q hq
    obtain ⟨s, m, e, e2⟩ := hq.fin
    cases e
    rw [← e2]; rfl
  rw [zero hx, zero hy, zero hw] at hs
  norm_num [Fmt.double] at hs

/-! ## Testing whether a vector is normalised -/

/-- `is_normalized` accepts vectors whose squared length is within four units of 1, and refuses those whose squared length differs from 1
by twelve units or more. -/
theorem C112_is_normalized (f : Fmt) (hf : f = .double ∨ f = .single) (v : Vec3 Flt) (a b c : ℚ) (hx : Stands f v.x a)
    (hy : Stands f v.y b) (hz : Stands f v.z c) (h : a ^ 2 + b ^ 2 + c ^ 2 ≤ f.maxVal / 2) :
    (|a ^ 2 + b ^ 2 + c ^ 2 - 1| ≤ 4 / 2 ^ f.prec → isNormalized f v = true) ∧
    (12 / 2 ^ f.prec ≤ |a ^ 2 + b ^ 2 + c ^ 2 - 1| → isNormalized f v = false) := by
  obtain ⟨h24, hn0, hn, hM⟩ := fmt_consts hf
  have e : |a * a| + |b * b| + |c * c| = a ^ 2 + b ^ 2 + c ^ 2 := by
    rw [abs_mul_self, abs_mul_self, abs_mul_self]; ring
  obtain ⟨r, hr⟩ := sum3_acc hf hx hy hz hx hy hz (by rw [e]; exact h)
  rw [e, ← sq, ← sq, ← sq] at hr
  have hS0 : 0 ≤ a ^ 2 + b ^ 2 + c ^ 2 := by positivity
  have he := hr.err
  have hs : Stands f (squaredLength f v) r := hr.stands
  generalize a ^ 2 + b ^ 2 + c ^ 2 = S at *
  have c1 : 2 ^ f.emin ≤ 1 / 100 * (1 / 2 ^ f.prec : ℚ) := by rcases hf with rfl | rfl <;> decide +kernel
  have c2 : (2 : ℚ) ^ (f.emin + 2 * f.prec) ≤ 1 / 4 := by rcases hf with rfl | rfl <;> decide +kernel
  have c3 : (4 * 2 ^ (1 - (f.prec : Int)) : ℚ) = 8 * (1 / 2 ^ f.prec) := by rcases hf with rfl | rfl <;> decide +kernel
  have hu0 : (0 : ℚ) < 1 / 2 ^ f.prec := by positivity
  have hu : 1 / (2 : ℚ) ^ f.prec ≤ 1 / 16777216 := by
    apply one_div_le_one_div_of_le (by norm_num)
    norm_num at h24 ⊢; exact h24
  rw [div_eq_mul_one_div S] at he
  rw [div_eq_mul_one_div (4 : ℚ), div_eq_mul_one_div (12 : ℚ)]
  have d0 : (0 : ℚ) ≤ 8 * (1 / 2 ^ f.prec) := by positivity
  have d1 : 8 * (1 / (2 : ℚ) ^ f.prec) ≤ 1 := by linarith
  have dE := default_stands f hf
  rw [c3] at dE
  have t := abs_sub_le r S 1
  have t' := abs_sub_le S r 1
  rw [abs_sub_comm S r] at t'
  unfold isNormalized
  constructor
  · intro hS
    apply C102_equals_complete f hf _ _ _ r 1 _ hs (one_stands hf) dE d0 d1
    generalize 1 / (2 : ℚ) ^ f.prec = u at *
    have hS1 : S ≤ 1 + 4 * u := by have := (abs_le.1 hS).2; linarith
    have hSu : S * u ≤ (1 + 4 * u) * u := mul_le_mul_of_nonneg_right hS1 hu0.le
    have huu : u * u ≤ 1 / 16777216 * u := mul_le_mul_of_nonneg_right hu hu0.le
    have hr1 : |r - 1| ≤ 71 / 10 * u := by nlinarith
    have hr2 : 1 - 71 / 10 * u ≤ |r| := by
      have := (abs_le.1 hr1).1
      have := le_abs_self r
      linarith
    have hr3 : (1 - 71 / 10 * u) * (8 * u) ≤ |r| * (8 * u) := mul_le_mul_of_nonneg_right hr2 d0
    nlinarith
  · intro hS
    by_contra hc
    have hc := C102_equals_sound f hf _ _ _ r 1 _ hs (one_stands hf) dE d0 d1 ((Bool.not_eq_false _).mp hc)
    rw [div_eq_mul_one_div (3 : ℚ)] at hc
    generalize 1 / (2 : ℚ) ^ f.prec = u at *
    have huu : u * u ≤ 1 / 16777216 * u := mul_le_mul_of_nonneg_right hu hu0.le
    have hra : |r| ≤ S + |r - S| := by
      have := abs_sub_abs_le_abs_sub r S
      rw [abs_of_nonneg hS0] at this
      linarith
    have f1 : 8 * u * (1 + 3 * u) ≤ 80001 / 10000 * u := by nlinarith
    have f2 : |r| * (8 * u) * (1 + 3 * u) ≤ |r| * (80001 / 10000 * u) := by
      have := mul_le_mul_of_nonneg_left f1 (abs_nonneg r)
      linarith
    have hSu0 : 0 ≤ S * u := by positivity
    have f3 : |r - S| * u ≤ (3002 / 1000 * (S * u) + 3 * (1 / 100 * u)) * (1 / 16777216) := by
      apply mul_le_mul (by linarith) hu hu0.le (by positivity)
    have f4 : |r| * u ≤ S * u + |r - S| * u := by
      have := mul_le_mul_of_nonneg_right hra hu0.le
      linarith
    have f5 : |S - 1| ≤ 11003 / 1000 * (S * u) + 1 / 10 * u := by linarith
    have f5' := (abs_le.1 f5).2
    have f6 : S ≤ 2 := by
      have := mul_le_mul_of_nonneg_left hu hS0
      linarith
    have f7 : S ≤ 1 + 23 * u := by
      have := mul_le_mul_of_nonneg_right f6 hu0.le
      linarith
    have f8 : S * u ≤ (1 + 23 * u) * u := mul_le_mul_of_nonneg_right f7 hu0.le
    rw [add_mul, one_mul, mul_assoc] at f8
    linarith

/-- Full statement: a vector that has been normalised is found to be normalised. -/
def NormalizedIsNormalized : Prop := ∀ v : Vec3 Flt, IsFloat .double v.x → IsFloat .double v.y → IsFloat .double v.z →
  UnitVector .double v.x.val v.y.val v.z.val (normalize .double v) → isNormalized .double (normalize .double v) = true

/-- A vector near `( 0.83, 0.58, 0.04 )`. -/
def notNormalized : Vec3 Flt :=
  ⟨.fin false (3740415844828919 / 2 ^ 52), .fin false (2601769559821351 / 2 ^ 52), .fin false (372006833763763 / 2 ^ 53)⟩

/-- It is not always; then `quat_from_axis_angle` does not accept it as an axis. -/
theorem C112_normalized_refuted : ¬ NormalizedIsNormalized ∧ isNormalized .double (normalize .double notNormalized) = false ∧
    axisAssert .double (normalize .double notNormalized) = .throws .assertion := by
  have hn : isNormalized .double (normalize .double notNormalized) = false := by decide +kernel
  have hx : Stands .double notNormalized.x (3740415844828919 / 2 ^ 52) := by
    simpa [notNormalized] using stands_double false (n := 3740415844828919) (e := 52) (by norm_num) (by norm_num)
  have hy : Stands .double notNormalized.y (2601769559821351 / 2 ^ 52) := by
    simpa [notNormalized] using stands_double false (n := 2601769559821351) (e := 52) (by norm_num) (by norm_num)
  have hz : Stands .double notNormalized.z (372006833763763 / 2 ^ 53) := by
    simpa [notNormalized] using stands_double false (n := 372006833763763) (e := 53) (by norm_num) (by norm_num)
  refine ⟨fun h => ?_, hn, by rw [axisAssert, hn]; rfl⟩
  have := h notNormalized hx.1 hy.1 hz.1 ((C112_normalize .double (.inl rfl) notNormalized _ _ _ hx hy hz (by decide +kernel)).2.2
    (by decide +kernel))
  rw [hn] at this
  cases this

theorem mul_one_fin {f : Fmt} (hf : f = .double ∨ f = .single) {x : Flt} (h : IsFloat f x) (hx : ∃ s m, x = .fin s m) :
    f.mul x (.fin false 1) = x := by
  obtain ⟨s, m, rfl⟩ := hx
  obtain ⟨h0, h1, h2⟩ := h
  have e1 : |(if (s != false) = true then -(m * 1) else m * 1)| = m := by cases s <;> simp [abs_of_nonneg h0]
  have e2 : (if (if (s != false) = true then -(m * 1) else m * 1) = 0 then s != false
      else decide ((if (s != false) = true then -(m * 1) else m * 1) < 0)) = s := by
    rcases h0.eq_or_lt with rfl | hpos
    · cases s <;> simp
    · cases s <;> simp [hpos, hpos.ne', hpos.le]
  simp only [Fmt.mul, Fmt.result, e1, e2, f.rnd_self (prec_pos hf) h0 h2, if_neg (not_lt.2 h1)]

/-- Unit vectors along the axes have length one exactly, are accepted, and are not changed. -/
theorem C112_axes (f : Fmt) (hf : f = .double ∨ f = .single) (v : Vec3 Flt) (a b c : ℚ) (hx : Stands f v.x a)
    (hy : Stands f v.y b) (hz : Stands f v.z c)
    (h : (a ^ 2 = 1 ∧ b = 0 ∧ c = 0) ∨ (a = 0 ∧ b ^ 2 = 1 ∧ c = 0) ∨ (a = 0 ∧ b = 0 ∧ c ^ 2 = 1)) :
    isNormalized f v = true ∧ length f v = .fin false 1 ∧ normalize f v = v := by
  have hS : a ^ 2 + b ^ 2 + c ^ 2 = 1 := by
    rcases h with ⟨h, rfl, rfl⟩ | ⟨rfl, h, rfl⟩ | ⟨rfl, rfl, h⟩ <;> rw [h] <;> norm_num
  have hM : 2 ≤ f.maxVal := by rcases hf with rfl | rfl <;> decide +kernel
  have c1 : (2 : ℚ) ^ (f.prec + 10) * 2 ^ f.emin ≤ 1 := by rcases hf with rfl | rfl <;> decide +kernel
  have hl : length f v = .fin false 1 := by
    rw [C111_axis f hf v a b c hx hy hz (by linarith) (by rw [hS]; exact c1) (by tauto)]
    congr 1
    have key : ∀ a : ℚ, a ^ 2 = 1 → |a| = 1 := fun a h => by
      rw [← sq_abs] at h
      nlinarith [abs_nonneg a]
    rcases h with ⟨h, rfl, rfl⟩ | ⟨rfl, h, rfl⟩ | ⟨rfl, rfl, h⟩ <;> simpa using key _ h
  refine ⟨(C112_is_normalized f hf v a b c hx hy hz (by linarith)).1 ?_, hl, ?_⟩
  · rw [hS, sub_self, abs_zero]; positivity
  · obtain ⟨_, _, ex, _⟩ := hx.fin
    obtain ⟨_, _, ey, _⟩ := hy.fin
    obtain ⟨_, _, ez, _⟩ := hz.fin
    have hi : inv f (.fin false 1) = .fin false 1 := by rcases hf with rfl | rfl <;> decide +kernel
    have hE : (epsilon f).lt (.fin false 1) = true := by rcases hf with rfl | rfl <;> decide +kernel
    simp only [normalize, hl, hE, if_true, hi, mul_one_fin hf hx.1 ⟨_, _, ex⟩, mul_one_fin hf hy.1 ⟨_, _, ey⟩,
      mul_one_fin hf hz.1 ⟨_, _, ez⟩]

/-! Concrete cases. -/

/-- `( 3, 4, 0 )` becomes `( 0.6, 0.8, 0 )`: the number nearest to 0.8 and one next to the number nearest to 0.6. -/
example : normalize .double ⟨.fin false 3, .fin true 4, .fin false 0⟩ =
    ⟨.fin false (5404319552844596 / 2 ^ 53), .fin true (7205759403792794 / 2 ^ 53), .fin false 0⟩ := by decide +kernel

example : UnitVector .double 3 (-4) 0 (normalize .double ⟨.fin false 3, .fin true 4, .fin false 0⟩) := by
  have h3 : Stands .double (.fin false 3) 3 := by
    simpa using stands_double false (n := 3) (e := 0) (by norm_num) (by norm_num)
  have h4 : Stands .double (.fin true 4) (-4) := by
    simpa using stands_double true (n := 4) (e := 0) (by norm_num) (by norm_num)
  exact (C112_normalize .double (.inl rfl) _ 3 (-4) 0 h3 h4 (zero_stands .double (.inl rfl) false) (by decide +kernel)).2.2
    (by decide +kernel)

/-- The null vector is not changed. -/
example : normalize .double ⟨.fin false 0, .fin true 0, .fin false 0⟩ = ⟨.fin false 0, .fin true 0, .fin false 0⟩ :=
  (C112_normalize .double (.inl rfl) _ 0 0 0 (zero_stands .double (.inl rfl) false) (zero_stands .double (.inl rfl) true)
    (zero_stands .double (.inl rfl) false) (by decide +kernel)).1 (by decide +kernel)

example : isNormalized .double ⟨.fin false 1, .fin false 0, .fin false 0⟩ = true ∧
    isNormalized .double ⟨.fin false (1 + 1 / 2 ^ 52), .fin false 0, .fin false 0⟩ = true ∧
    isNormalized .double ⟨.fin false (1 + 6 / 2 ^ 52), .fin false 0, .fin false 0⟩ = false ∧
    isNormalized .double ⟨.nan false, .fin false 0, .fin false 0⟩ = false := by decide +kernel

example : normalize .double ⟨.inf true, .fin true 1, .fin false 0⟩ = ⟨.nan false, .fin true 0, .fin false 0⟩ := by decide +kernel

end Flut
