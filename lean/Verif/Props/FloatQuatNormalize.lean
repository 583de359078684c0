import Verif.Props.FloatNormalize

/-! # Property theorems: normalising quaternions in floating-point arithmetic (C112) -/

namespace Flut

open Spec FloatMath

/-- `q'` is a quaternion of length one in the direction of `( d; a, b, c )`: every component is right to six units, and the square of the
length is right to eleven. -/
def UnitQuat (f : Fmt) (d a b c : ℚ) (q' : Quat Flt) : Prop :=
  ∃ w x y z : ℚ, Stands f q'.w w ∧ Stands f q'.x x ∧ Stands f q'.y y ∧ Stands f q'.z z ∧
    (let L : ℝ := √((d : ℝ) ^ 2 + (a : ℝ) ^ 2 + (b : ℝ) ^ 2 + (c : ℝ) ^ 2)
     |(w : ℝ) - d / L| ≤ 6 / 2 ^ f.prec * (|(d : ℝ)| / L) + 2 ^ f.emin ∧
     |(x : ℝ) - a / L| ≤ 6 / 2 ^ f.prec * (|(a : ℝ)| / L) + 2 ^ f.emin ∧
     |(y : ℝ) - b / L| ≤ 6 / 2 ^ f.prec * (|(b : ℝ)| / L) + 2 ^ f.emin ∧
     |(z : ℝ) - c / L| ≤ 6 / 2 ^ f.prec * (|(c : ℝ)| / L) + 2 ^ f.emin) ∧
    |w ^ 2 + x ^ 2 + y ^ 2 + z ^ 2 - 1| ≤ 11 / 2 ^ f.prec

/-- The length that `normalize` computes. -/
private def sumLength (f : Fmt) (q : Quat Flt) : Flt :=
  f.sqrt (f.add (f.add (f.add (f.mul q.x q.x) (f.mul q.y q.y)) (f.mul q.z q.z)) (f.mul q.w q.w))

private def scaled (f : Fmt) (q : Quat Flt) : Quat Flt :=
  ⟨f.mul q.w (inv f (sumLength f q)), f.mul q.x (inv f (sumLength f q)), f.mul q.y (inv f (sumLength f q)),
    f.mul q.z (inv f (sumLength f q))⟩

private theorem quatNormalize_eq (f : Fmt) (q : Quat Flt) :
    quatNormalize f q = if (epsilon f).lt (sumLength f q) then scaled f q else q := rfl

private theorem scaled_unit {f : Fmt} (hf : f = .double ∨ f = .single) {q : Quat Flt} {d a b c : ℚ} (hw : Stands f q.w d)
    (hx : Stands f q.x a) (hy : Stands f q.y b) (hz : Stands f q.z c) (h : d ^ 2 + a ^ 2 + b ^ 2 + c ^ 2 ≤ f.maxVal / 2)
    (h' : 2 ^ (f.prec + 10) * 2 ^ f.emin ≤ d ^ 2 + a ^ 2 + b ^ 2 + c ^ 2) : UnitQuat f d a b c (scaled f q) := by
  have eS : a ^ 2 + b ^ 2 + c ^ 2 + d ^ 2 = d ^ 2 + a ^ 2 + b ^ 2 + c ^ 2 := by ring
  obtain ⟨l, hl, he⟩ := root4_err hf hx hy hz hw (by rw [eS]; exact h) (by rw [eS]; exact h')
  rw [eS] at he
  obtain ⟨h24, hn0, hn, hM⟩ := fmt_consts hf
  have hS0 : 0 < d ^ 2 + a ^ 2 + b ^ 2 + c ^ 2 := lt_of_lt_of_le (by positivity) h'
  have hSR : (0 : ℝ) < ((d ^ 2 + a ^ 2 + b ^ 2 + c ^ 2 : ℚ) : ℝ) := by exact_mod_cast hS0
  have hP := prec_real hf
  have hL := Real.sqrt_pos.2 hSR
  have hLL := Real.mul_self_sqrt hSR.le
  have hb := abs_le.1 he
  have hu : √((d ^ 2 + a ^ 2 + b ^ 2 + c ^ 2 : ℚ) : ℝ) / 2 ^ f.prec ≤ √((d ^ 2 + a ^ 2 + b ^ 2 + c ^ 2 : ℚ) : ℝ) / 16777216 :=
    div_le_div_of_nonneg_left hL.le (by norm_num) hP
  have hl0 : (0 : ℝ) < l := by linarith
  have hl0' : 0 < l := by exact_mod_cast hl0
  have b1 : l * l ≤ 2 * f.maxVal := by
    have : (l : ℝ) * l ≤ 2 * ((d ^ 2 + a ^ 2 + b ^ 2 + c ^ 2 : ℚ) : ℝ) := by nlinarith
    have : ((l * l : ℚ) : ℝ) ≤ ((2 * (d ^ 2 + a ^ 2 + b ^ 2 + c ^ 2) : ℚ) : ℝ) := by push_cast at this ⊢; exact this
    have : l * l ≤ 2 * (d ^ 2 + a ^ 2 + b ^ 2 + c ^ 2) := by exact_mod_cast this
    linarith [maxVal_pos hf]
  have b2 : 2 ^ f.emin / 4 ≤ l * l := by
    have : ((d ^ 2 + a ^ 2 + b ^ 2 + c ^ 2 : ℚ) : ℝ) / 4 ≤ l * l := by nlinarith
    have : (((d ^ 2 + a ^ 2 + b ^ 2 + c ^ 2) / 4 : ℚ) : ℝ) ≤ ((l * l : ℚ) : ℝ) := by push_cast at this ⊢; exact this
    have : (d ^ 2 + a ^ 2 + b ^ 2 + c ^ 2) / 4 ≤ l * l := by exact_mod_cast this
    have h3 : 2 ^ f.emin ≤ d ^ 2 + a ^ 2 + b ^ 2 + c ^ 2 :=
      le_trans (le_mul_of_one_le_left hn0.le (one_le_pow₀ (by norm_num))) h'
    linarith
  obtain ⟨i, hi, hie⟩ := inv_close hf hl hl0' b1 b2 hL (by norm_num) (by norm_num) he
  push_cast at hL hie hLL
  generalize hLd : √((d : ℝ) ^ 2 + (a : ℝ) ^ 2 + (b : ℝ) ^ 2 + (c : ℝ) ^ 2) = L at *
  have n1 := sq_nonneg (d : ℝ)
  have n2 := sq_nonneg (a : ℝ)
  have n3 := sq_nonneg (b : ℝ)
  have n4 := sq_nonneg (c : ℝ)
  have cd : |(d : ℝ)| ≤ L := by rw [← hLd]; exact Real.abs_le_sqrt (by linarith)
  have ca : |(a : ℝ)| ≤ L := by rw [← hLd]; exact Real.abs_le_sqrt (by linarith)
  have cb : |(b : ℝ)| ≤ L := by rw [← hLd]; exact Real.abs_le_sqrt (by linarith)
  have cc : |(c : ℝ)| ≤ L := by rw [← hLd]; exact Real.abs_le_sqrt (by linarith)
  obtain ⟨w, sw, ew⟩ := scale_close hf hw hi hL cd (by norm_num) (by norm_num) hie
  obtain ⟨x, sx, ex⟩ := scale_close hf hx hi hL ca (by norm_num) (by norm_num) hie
  obtain ⟨y, sy, ey⟩ := scale_close hf hy hi hL cb (by norm_num) (by norm_num) hie
  obtain ⟨z, sz, ez⟩ := scale_close hf hz hi hL cc (by norm_num) (by norm_num) hie
  have hη : (0 : ℝ) < 2 ^ f.emin := by positivity
  have hη1 : (2 : ℝ) ^ f.emin ≤ 1 / 2 ^ 100 := by
    have : ((2 ^ f.emin : ℚ) : ℝ) ≤ ((1 / 2 ^ 100 : ℚ) : ℝ) := by exact_mod_cast hn
    push_cast at this; exact this
  have weak : ∀ {x a : ℝ}, |x - a / L| ≤ (306 / 100 + 1001 / 1000 + 1001 / 1000) * (|a| / L / 2 ^ f.prec) + 2 ^ f.emin / 2 →
      |x - a / L| ≤ 6 / 2 ^ f.prec * (|a| / L) + 2 ^ f.emin := by
    intro x a hx
    have e : 6 / 2 ^ f.prec * (|a| / L) = 6 * (|a| / L / 2 ^ f.prec) := by ring
    have : 0 ≤ |a| / L / 2 ^ f.prec := by positivity
    rw [e]; linarith
  refine ⟨w, x, y, z, sw, sx, sy, sz, ?_, ?_⟩
  · rw [hLd]
    exact ⟨weak ew, weak ex, weak ey, weak ez⟩
  · have hu1 : 1 / (2 : ℝ) ^ f.prec ≤ 1 / 16777216 := one_div_le_one_div_of_le (by norm_num) hP
    have hu0 : 0 < 1 / (2 : ℝ) ^ f.prec := by positivity
    have sqc : ∀ {x a : ℝ}, |a| ≤ L → |x - a / L| ≤ (306 / 100 + 1001 / 1000 + 1001 / 1000) * (|a| / L / 2 ^ f.prec) + 2 ^ f.emin / 2 →
        |x ^ 2 - (a / L) ^ 2| ≤ 2001 / 1000 * (5062 / 1000 * (1 / 2 ^ f.prec)) * (a / L) ^ 2 + 3 * (2 ^ f.emin / 2) := by
      intro x a ha hx
      have e : |a / L| = |a| / L := by rw [abs_div, abs_of_pos hL]
      apply square_close
      · rw [e]; exact (div_le_one hL).2 ha
      · positivity
      · linarith
      · positivity
      · linarith [(by norm_num : (1 : ℝ) / 2 ^ 100 ≤ 1 / 1000000)]
      · rw [e]
        refine hx.trans (le_of_eq ?_)
        ring
    have q0 := sqc cd ew
    have q1 := sqc ca ex
    have q2 := sqc cb ey
    have q3 := sqc cc ez
    have one : ((d : ℝ) / L) ^ 2 + ((a : ℝ) / L) ^ 2 + ((b : ℝ) / L) ^ 2 + ((c : ℝ) / L) ^ 2 = 1 := by
      rw [div_pow, div_pow, div_pow, div_pow, ← add_div, ← add_div, ← add_div, div_eq_one_iff_eq (by positivity), sq L]
      exact hLL.symm
    have t := abs_add_three ((x : ℝ) ^ 2 - (a / L) ^ 2) ((y : ℝ) ^ 2 - (b / L) ^ 2) ((z : ℝ) ^ 2 - (c / L) ^ 2)
    have t2 := abs_add_le ((w : ℝ) ^ 2 - (d / L) ^ 2)
      ((x : ℝ) ^ 2 - (a / L) ^ 2 + ((y : ℝ) ^ 2 - (b / L) ^ 2) + ((z : ℝ) ^ 2 - (c / L) ^ 2))
    have e1 : (w : ℝ) ^ 2 - (d / L) ^ 2 + ((x : ℝ) ^ 2 - (a / L) ^ 2 + ((y : ℝ) ^ 2 - (b / L) ^ 2) + ((z : ℝ) ^ 2 - (c / L) ^ 2)) =
        w ^ 2 + x ^ 2 + y ^ 2 + z ^ 2 - 1 := by
      rw [← one]; ring
    rw [e1] at t2
    have hη2 : (2 : ℝ) ^ f.emin ≤ 1 / 100 * (1 / 2 ^ f.prec) := by
      have : (2 : ℚ) ^ f.emin ≤ 1 / 100 * (1 / 2 ^ f.prec) := by rcases hf with rfl | rfl <;> decide +kernel
      have : ((2 ^ f.emin : ℚ) : ℝ) ≤ ((1 / 100 * (1 / 2 ^ f.prec) : ℚ) : ℝ) := by exact_mod_cast this
      push_cast at this; exact this
    have e2 : 2001 / 1000 * (5062 / 1000 * (1 / (2 : ℝ) ^ f.prec)) * ((d : ℝ) / L) ^ 2 +
        2001 / 1000 * (5062 / 1000 * (1 / 2 ^ f.prec)) * ((a : ℝ) / L) ^ 2 +
        2001 / 1000 * (5062 / 1000 * (1 / 2 ^ f.prec)) * ((b : ℝ) / L) ^ 2 +
        2001 / 1000 * (5062 / 1000 * (1 / 2 ^ f.prec)) * ((c : ℝ) / L) ^ 2 = 2001 / 1000 * (5062 / 1000 * (1 / 2 ^ f.prec)) := by
      rw [← mul_add, ← mul_add, ← mul_add, one, mul_one]
    have fin : |(w : ℝ) ^ 2 + x ^ 2 + y ^ 2 + z ^ 2 - 1| ≤ 11 / 2 ^ f.prec := by
      rw [div_eq_mul_one_div (11 : ℝ)]
      linarith
    have : ((|w ^ 2 + x ^ 2 + y ^ 2 + z ^ 2 - 1| : ℚ) : ℝ) ≤ ((11 / 2 ^ f.prec : ℚ) : ℝ) := by push_cast; exact fin
    exact_mod_cast this

private theorem sumLength_long {f : Fmt} (hf : f = .double ∨ f = .single) {q : Quat Flt} {d a b c : ℚ} (hw : Stands f q.w d)
    (hx : Stands f q.x a) (hy : Stands f q.y b) (hz : Stands f q.z c) (hm : d ^ 2 + a ^ 2 + b ^ 2 + c ^ 2 ≤ f.maxVal / 2)
    (h : 2 * (2 ^ (1 - (f.prec : Int))) ^ 2 ≤ d ^ 2 + a ^ 2 + b ^ 2 + c ^ 2) : (epsilon f).lt (sumLength f q) = true := by
  have eS : a ^ 2 + b ^ 2 + c ^ 2 + d ^ 2 = d ^ 2 + a ^ 2 + b ^ 2 + c ^ 2 := by ring
  have hE := epsilon_stands hf
  have c1 : 2 ^ (f.prec + 10) * 2 ^ f.emin ≤ (2 ^ (1 - (f.prec : Int)) : ℚ) ^ 2 := by rcases hf with rfl | rfl <;> decide +kernel
  have hEp : (0 : ℚ) < 2 ^ (1 - (f.prec : Int)) := by positivity
  obtain ⟨l, hl, he⟩ := root4_err hf hx hy hz hw (by rw [eS]; exact hm) (by rw [eS]; nlinarith)
  rw [eS] at he
  unfold sumLength
  rw [lt_stands hE hl]
  generalize d ^ 2 + a ^ 2 + b ^ 2 + c ^ 2 = S at *
  have hR : 2 * ((2 ^ (1 - (f.prec : Int)) : ℚ) : ℝ) ^ 2 ≤ (S : ℝ) := by exact_mod_cast h
  have hEpR : (0 : ℝ) < ((2 ^ (1 - (f.prec : Int)) : ℚ) : ℝ) := by exact_mod_cast hEp
  have hS : (0 : ℝ) ≤ (S : ℝ) := le_trans (by positivity) hR
  have hP := prec_real hf
  have hs0 := Real.sqrt_nonneg (S : ℝ)
  have hss := Real.mul_self_sqrt hS
  have hu : √(S : ℝ) / 2 ^ f.prec ≤ √(S : ℝ) / 16777216 := div_le_div_of_nonneg_left hs0 (by norm_num) hP
  have hb := (abs_le.1 he).1
  have : ((2 ^ (1 - (f.prec : Int)) : ℚ) : ℝ) < l := by
    generalize ((2 ^ (1 - (f.prec : Int)) : ℚ) : ℝ) = ε at *
    generalize √(S : ℝ) = s at *
    have : 14 / 10 * ε ≤ s := by
      by_contra hc
      have hc := not_le.1 hc
      have := mul_self_lt_mul_self hs0 hc
      nlinarith
    linarith
  exact_mod_cast this

/-- Normalising a quaternion of finite components whose squares are not too large: if it is not tiny it is not changed or gets length one,
and it gets length one if its length is one and a half times the distance from 1 to the next number. -/
theorem C112_quat_normalize (f : Fmt) (hf : f = .double ∨ f = .single) (q : Quat Flt) (d a b c : ℚ) (hw : Stands f q.w d)
    (hx : Stands f q.x a) (hy : Stands f q.y b) (hz : Stands f q.z c) (h : d ^ 2 + a ^ 2 + b ^ 2 + c ^ 2 ≤ f.maxVal / 2) :
    (2 ^ (f.prec + 10) * 2 ^ f.emin ≤ d ^ 2 + a ^ 2 + b ^ 2 + c ^ 2 → quatNormalize f q = q ∨ UnitQuat f d a b c (quatNormalize f q)) ∧
    (2 * (2 ^ (1 - (f.prec : Int))) ^ 2 ≤ d ^ 2 + a ^ 2 + b ^ 2 + c ^ 2 → UnitQuat f d a b c (quatNormalize f q)) := by
  have c1 : 2 ^ (f.prec + 10) * 2 ^ f.emin ≤ (2 ^ (1 - (f.prec : Int)) : ℚ) ^ 2 := by rcases hf with rfl | rfl <;> decide +kernel
  refine ⟨fun h1 => ?_, fun h1 => ?_⟩
  · rw [quatNormalize_eq]
    split_ifs
    · exact .inr (scaled_unit hf hw hx hy hz h h1)
    · exact .inl rfl
  · rw [quatNormalize_eq, sumLength_long hf hw hx hy hz h h1, if_pos rfl]
    have : (0 : ℚ) ≤ (2 ^ (1 - (f.prec : Int))) ^ 2 := by positivity
    exact scaled_unit hf hw hx hy hz h (by linarith)

/-- `is_normalized` of a quaternion accepts those whose squared length is within three units of 1, and refuses those whose squared length
differs from 1 by thirteen units or more. -/
theorem C112_quat_is_normalized (f : Fmt) (hf : f = .double ∨ f = .single) (q : Quat Flt) (d a b c : ℚ) (hw : Stands f q.w d) (hx : Stands f q.x a)
    (hy : Stands f q.y b) (hz : Stands f q.z c) (h : d ^ 2 + a ^ 2 + b ^ 2 + c ^ 2 ≤ f.maxVal / 2) :
    (|d ^ 2 + a ^ 2 + b ^ 2 + c ^ 2 - 1| ≤ 3 / 2 ^ f.prec → quatIsNormalized f q = true) ∧
    (13 / 2 ^ f.prec ≤ |d ^ 2 + a ^ 2 + b ^ 2 + c ^ 2 - 1| → quatIsNormalized f q = false) := by
  obtain ⟨h24, hn0, hn, hM⟩ := fmt_consts hf
  obtain ⟨r, hr⟩ := sum4_acc hf hw hx hy hz h
  have hS0 : 0 ≤ d ^ 2 + a ^ 2 + b ^ 2 + c ^ 2 := by positivity
  have he := hr.err
  have hs : Stands f (f.add (f.add (f.add (f.mul q.w q.w) (f.mul q.x q.x)) (f.mul q.y q.y)) (f.mul q.z q.z)) r := hr.stands
  generalize d ^ 2 + a ^ 2 + b ^ 2 + c ^ 2 = S at *
  have c1 : 2 ^ f.emin ≤ 1 / 100 * (1 / 2 ^ f.prec : ℚ) := by rcases hf with rfl | rfl <;> decide +kernel
  have c2 : (2 : ℚ) ^ (f.emin + 2 * f.prec) ≤ 1 / 4 := by rcases hf with rfl | rfl <;> decide +kernel
  have c3 : (4 * 2 ^ (1 - (f.prec : Int)) : ℚ) = 8 * (1 / 2 ^ f.prec) := by rcases hf with rfl | rfl <;> decide +kernel
  have hu0 : (0 : ℚ) < 1 / 2 ^ f.prec := by positivity
  have hu : 1 / (2 : ℚ) ^ f.prec ≤ 1 / 16777216 := by
    apply one_div_le_one_div_of_le (by norm_num)
    norm_num at h24 ⊢; exact h24
  rw [div_eq_mul_one_div S] at he
  rw [div_eq_mul_one_div (3 : ℚ), div_eq_mul_one_div (13 : ℚ)]
  have d0 : (0 : ℚ) ≤ 8 * (1 / 2 ^ f.prec) := by positivity
  have d1 : 8 * (1 / (2 : ℚ) ^ f.prec) ≤ 1 := by linarith
  have dE := default_stands f hf
  rw [c3] at dE
  have t := abs_sub_le r S 1
  have t' := abs_sub_le S r 1
  rw [abs_sub_comm S r] at t'
  unfold quatIsNormalized
  constructor
  · intro hS
    apply C102_equals_complete f hf _ _ _ r 1 _ hs (one_stands hf) dE d0 d1
    generalize 1 / (2 : ℚ) ^ f.prec = u at *
    have hS1 : S ≤ 1 + 3 * u := by have := (abs_le.1 hS).2; linarith
    have hSu : S * u ≤ (1 + 3 * u) * u := mul_le_mul_of_nonneg_right hS1 hu0.le
    have huu : u * u ≤ 1 / 16777216 * u := mul_le_mul_of_nonneg_right hu hu0.le
    have hr1 : |r - 1| ≤ 71 / 10 * u := by nlinarith
    have hr2 : 1 - 71 / 10 * u ≤ |r| := by
      have := (abs_le.1 hr1).1
      have := le_abs_self r
      linarith
    have hr3 : (1 - 71 / 10 * u) * (8 * u) ≤ |r| * (8 * u) := mul_le_mul_of_nonneg_right hr2 d0
    nlinarith
  · intro hS
    by_contra hc
    have hc := C102_equals_sound f hf _ _ _ r 1 _ hs (one_stands hf) dE d0 d1 ((Bool.not_eq_false _).mp hc)
    rw [div_eq_mul_one_div (3 : ℚ)] at hc
    generalize 1 / (2 : ℚ) ^ f.prec = u at *
    have huu : u * u ≤ 1 / 16777216 * u := mul_le_mul_of_nonneg_right hu hu0.le
    have hra : |r| ≤ S + |r - S| := by
      have := abs_sub_abs_le_abs_sub r S
      rw [abs_of_nonneg hS0] at this
      linarith
    have f1 : 8 * u * (1 + 3 * u) ≤ 80001 / 10000 * u := by nlinarith
    have f2 : |r| * (8 * u) * (1 + 3 * u) ≤ |r| * (80001 / 10000 * u) := by
      have := mul_le_mul_of_nonneg_left f1 (abs_nonneg r)
      linarith
    have hSu0 : 0 ≤ S * u := by positivity
    have f3 : |r - S| * u ≤ (4003 / 1000 * (S * u) + 4 * (1 / 100 * u)) * (1 / 16777216) := by
      apply mul_le_mul (by linarith) hu hu0.le (by positivity)
    have f4 : |r| * u ≤ S * u + |r - S| * u := by
      have := mul_le_mul_of_nonneg_right hra hu0.le
      linarith
    have f5 : |S - 1| ≤ 12004 / 1000 * (S * u) + 1 / 10 * u := by linarith
    have f5' := (abs_le.1 f5).2
    have f6 : S ≤ 2 := by
      have := mul_le_mul_of_nonneg_left hu hS0
      linarith
    have f7 : S ≤ 1 + 25 * u := by
      have := mul_le_mul_of_nonneg_right f6 hu0.le
      linarith
    have f8 : S * u ≤ (1 + 25 * u) * u := mul_le_mul_of_nonneg_right f7 hu0.le
    rw [add_mul, one_mul, mul_assoc] at f8
    linarith

/-- Full statement: a quaternion that has been normalised is found to be normalised. -/
def NormalizedQuatIsNormalized : Prop := ∀ q : Quat Flt, IsFloat .double q.w → IsFloat .double q.x → IsFloat .double q.y →
  IsFloat .double q.z → UnitQuat .double q.w.val q.x.val q.y.val q.z.val (quatNormalize .double q) →
  quatIsNormalized .double (quatNormalize .double q) = true

/-- A quaternion near `( 0.12; 0.68, 0.74, 0.03 )`. -/
def notNormalizedQuat : Quat Flt :=
  ⟨.fin false (16410814280675 / 2 ^ 47), .fin false (763476555009045 / 2 ^ 50), .fin false (6627847911082119 / 2 ^ 53),
    .fin false (242245551804977 / 2 ^ 53)⟩

/-- It is not always. -/
theorem C112_normalized_quat_refuted : ¬ NormalizedQuatIsNormalized ∧
    quatIsNormalized .double (quatNormalize .double notNormalizedQuat) = false := by
  have hn : quatIsNormalized .double (quatNormalize .double notNormalizedQuat) = false := by decide +kernel
  have hw : Stands .double notNormalizedQuat.w (16410814280675 / 2 ^ 47) := by
    simpa [notNormalizedQuat] using stands_double false (n := 16410814280675) (e := 47) (by norm_num) (by norm_num)
  have hx : Stands .double notNormalizedQuat.x (763476555009045 / 2 ^ 50) := by
    simpa [notNormalizedQuat] using stands_double false (n := 763476555009045) (e := 50) (by norm_num) (by norm_num)
  have hy : Stands .double notNormalizedQuat.y (6627847911082119 / 2 ^ 53) := by
    simpa [notNormalizedQuat] using stands_double false (n := 6627847911082119) (e := 53) (by norm_num) (by norm_num)
  have hz : Stands .double notNormalizedQuat.z (242245551804977 / 2 ^ 53) := by
    simpa [notNormalizedQuat] using stands_double false (n := 242245551804977) (e := 53) (by norm_num) (by norm_num)
  refine ⟨fun h => ?_, hn⟩
  have := h notNormalizedQuat hw.1 hx.1 hy.1 hz.1
    ((C112_quat_normalize .double (.inl rfl) notNormalizedQuat _ _ _ _ hw hx hy hz (by decide +kernel)).2 (by decide +kernel))
  rw [hn] at this
  cases this

example : quatIsNormalized .double ⟨.fin false (1 / 2), .fin true (1 / 2), .fin false (1 / 2), .fin false (1 / 2)⟩ = true ∧
    quatIsNormalized .double ⟨.fin false (1 + 7 / 2 ^ 52), .fin false 0, .fin false 0, .fin false 0⟩ = false := by decide +kernel

/-! Concrete cases: a quaternion of length 2 and one of length 5. -/

example : quatNormalize .double ⟨.fin false 1, .fin true 1, .fin false 1, .fin false 1⟩ =
    ⟨.fin false (1 / 2), .fin true (1 / 2), .fin false (1 / 2), .fin false (1 / 2)⟩ := by decide +kernel

example : quatLength .double ⟨.fin false 2, .fin true 4, .fin false 2, .fin false 1⟩ = .fin false 5 ∧
    quatIsNormalized .double (quatNormalize .double ⟨.fin false 2, .fin true 4, .fin false 2, .fin false 1⟩) = true := by decide +kernel

example : UnitQuat .double 1 0 0 (-1) (quatNormalize .double ⟨.fin false 1, .fin false 0, .fin true 0, .fin true 1⟩) := by
  refine (C112_quat_normalize .double (.inl rfl) _ 1 0 0 (-1) (one_stands (.inl rfl)) (zero_stands .double (.inl rfl) false)
    (zero_stands .double (.inl rfl) true) (neg_stands (one_stands (.inl rfl))) (by decide +kernel)).2 (by decide +kernel)

end Flut
