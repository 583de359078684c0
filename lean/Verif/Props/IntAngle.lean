import Mathlib.Analysis.Real.Pi.Bounds
import Verif.Model.IntAngle

/-!
# C172: angles whose values are of type `int`
-/

namespace Flut

namespace IntAngle

/-- The angle in radians that a value with a unit stands for. -/
noncomputable def meaning (u : AngleUnit) (x : ℝ) : ℝ :=
  match u with
  | .degrees => x * Real.pi / 180
  | .radians => x

theorem int32_ok {x : Int} (h1 : -2 ^ 31 ≤ x) (h2 : x < 2 ^ 31) : int32 x = .ok x := if_pos ⟨h1, h2⟩

/-- C172: an angle of a real type made from a whole number of degrees or radians is the same angle. -/
theorem C172_to_real (u t : AngleUnit) (v : Int) : meaning t (toReal Real.pi u t v) = meaning u v := by
  have := Real.pi_ne_zero
  cases u <;> cases t <;> simp only [meaning, toReal, convertAngle, Flut.degToRad, Flut.radToDeg]
  · ring
  · field_simp

/-- C172: the sum of whole numbers of degrees, or of radians, is the sum of the angles, if it is in the range of `int`. -/
theorem C172_sum (u : AngleUnit) (v w : Int) (h1 : -2 ^ 31 ≤ v + w) (h2 : v + w < 2 ^ 31) :
    ∃ s, add v w = .ok s ∧ meaning u s = meaning u v + meaning u w := by
  refine ⟨v + w, int32_ok h1 h2, ?_⟩
  cases u <;> simp only [meaning] <;> push_cast <;> ring

example : add 90 45 = .ok 135 := by decide

/-- C172 is false of the conversion to radians: every whole number of degrees is 0 radians. -/
theorem C172_refuted (v : Int) : convert .degrees .radians v = .ok 0 := by
  have : Int.tdiv pi 180 = 0 := by decide
  simp only [convert, degToRad, this, Int.zero_mul]
  decide

/-- And of that to degrees: a radian is 60 degrees. -/
theorem C172_degrees_refuted (v : Int) (h1 : -2 ^ 31 ≤ 60 * v) (h2 : 60 * v < 2 ^ 31) : convert .radians .degrees v = .ok (60 * v) := by
  have : Int.tdiv 180 pi = 60 := by decide
  simp only [convert, radToDeg, this]
  exact int32_ok h1 h2

theorem cut_zero : cut 0 = .ok 0 := by
  unfold cut
  rw [if_pos le_rfl, Int.floor_zero]
  decide

theorem cut_one : cut 1 = .ok 1 := by
  unfold cut
  rw [if_pos zero_le_one, Int.floor_one]
  decide

/-- Numbers below 1 are cut off to 0. -/
theorem cut_small {s : ℝ} (h1 : -1 < s) (h2 : s < 1) : cut s = .ok 0 := by
  unfold cut
  have : (if 0 ≤ s then ⌊s⌋ else ⌈s⌉) = 0 := by
    split
    · rw [Int.floor_eq_zero_iff]
      exact ⟨by assumption, h2⟩
    · rw [Int.ceil_eq_zero_iff]
      exact ⟨h1, by linarith⟩
  rw [this]
  decide

/-- C172 is false of `sin` and `cos`: those of every whole number of degrees are 0 and 1. -/
theorem C172_sin_refuted (v : Int) : sin .degrees v = .ok 0 ∧ cos .degrees v = .ok 1 := by
  unfold sin cos
  rw [C172_refuted]
  simp only [Res.bind_ok, Int.cast_zero, Real.sin_zero, Real.cos_zero]
  exact ⟨cut_zero, cut_one⟩

/-- The right values at 90 degrees are 1 and 0. -/
example : Real.sin (meaning .degrees 90) = 1 ∧ Real.cos (meaning .degrees 90) = 0 := by
  have : meaning .degrees 90 = Real.pi / 2 := by simp only [meaning]; ring
  rw [this]
  exact ⟨Real.sin_pi_div_two, Real.cos_pi_div_two⟩

theorem cut_int (k : Int) (h1 : -2 ^ 31 ≤ k) (h2 : k < 2 ^ 31) : cut (k : ℝ) = .ok k := by
  unfold cut
  rw [Int.floor_intCast, Int.ceil_intCast, ite_self]
  exact int32_ok h1 h2

/-- C172: nothing changes by converting to the same unit, and whole numbers of degrees, or of radians, are compared right. -/
theorem C172_same_unit (u : AngleUnit) (v w : Int) (h1 : -2 ^ 31 ≤ w) (h2 : w < 2 ^ 31) :
    convert u u v = .ok v ∧ ofReal u u (w : ℝ) = .ok w ∧ ∃ b, lt u u v (w : ℝ) = .ok b ∧ (b = true ↔ meaning u v < meaning u w) := by
  have hc : ∀ x, convert u u x = .ok x := fun x => by cases u <;> rfl
  have ho : ofReal u u (w : ℝ) = .ok w := by
    simp only [ofReal, cut_int w h1 h2, Res.bind_ok, hc]
  refine ⟨hc v, ho, decide (v < w), by simp only [lt, ho, Res.bind_ok], ?_⟩
  rw [decide_eq_true_iff, ← Int.cast_lt (R := ℝ)]
  have := Real.pi_pos
  cases u <;> simp only [meaning]
  rw [div_lt_div_iff_of_pos_right (by norm_num), mul_lt_mul_iff_left₀ this]

/-- C172: dividing by a whole number that goes into the value gives that part of the angle. -/
theorem C172_part (u : AngleUnit) (v k : Int) (hk0 : k ≠ 0) (hk1 : -2 ^ 31 ≤ k) (hk2 : k < 2 ^ 31) (h1 : -2 ^ 31 ≤ v) (h2 : v < 2 ^ 31) :
    divide (v * k) (k : ℝ) = .ok v ∧ meaning u v = meaning u ((v * k : Int) : ℝ) / k := by
  constructor
  · unfold divide
    rw [cut_int k hk1 hk2]
    simp only [Res.bind_ok, if_neg hk0, Int.mul_tdiv_cancel v hk0]
    exact int32_ok h1 h2
  · have : (k : ℝ) ≠ 0 := Int.cast_ne_zero.mpr hk0
    cases u <;> simp only [meaning] <;> push_cast <;> field_simp

example : divide (45 * 2) ((2 : Int) : ℝ) = .ok 45 := (C172_part .degrees 45 2 (by decide) (by decide) (by decide) (by decide) (by decide)).1

/-- C172: multiplying by a whole number gives the multiple of the angle, if it is in the range of `int`. -/
theorem C172_multiple (u : AngleUnit) (v k : Int) (hk1 : -2 ^ 31 ≤ k) (hk2 : k < 2 ^ 31) (h1 : -2 ^ 31 ≤ v * k) (h2 : v * k < 2 ^ 31) :
    ∃ r, scale v (k : ℝ) = .ok r ∧ meaning u r = k * meaning u v := by
  have hc := cut_int k hk1 hk2
  refine ⟨v * k, ?_, ?_⟩
  · unfold scale
    rw [hc]
    exact int32_ok h1 h2
  · cases u <;> simp only [meaning] <;> push_cast <;> ring

/-- C172 is false of fractions: an angle times a number between -1 and 1 is 0, and divided by it undefined. -/
theorem C172_scale_refuted (v : Int) (s : ℝ) (h1 : -1 < s) (h2 : s < 1) : scale v s = .ok 0 ∧ divide v s = .ub := by
  unfold scale divide
  rw [cut_small h1 h2]
  simp only [Res.bind_ok, Int.mul_zero, if_true]
  exact ⟨by decide, trivial⟩

/-- C172 is false of an angle of type `int` made from a real one with the other unit: digits behind the point are cut off before the
conversion, so that everything in degrees gives 0, and 1.9 radians give 60 degrees. -/
theorem C172_of_real_refuted : (∀ x : ℝ, -2 ^ 31 < x → x < 2 ^ 31 → ofReal .degrees .radians x = .ok 0) ∧ ofReal .radians .degrees 1.9 = .ok 60 := by
  constructor
  · intro x h1 h2
    have hc : ∃ k, cut x = .ok k := by
      refine ⟨_, int32_ok ?_ ?_⟩
      · split
        · exact le_trans (by norm_num) (Int.floor_nonneg.mpr (by assumption))
        · rw [← Int.cast_le (R := ℝ)]
          push_cast
          linarith [Int.le_ceil x]
      · split
        · rw [Int.floor_lt]
          push_cast
          linarith
        · have : ⌈x⌉ ≤ 0 := Int.ceil_le.mpr (by push_cast; linarith)
          omega
    obtain ⟨k, hc⟩ := hc
    simp only [ofReal, hc, Res.bind_ok, C172_refuted]
  · have hc : cut 1.9 = .ok 1 := by
      unfold cut
      rw [if_pos (by norm_num), (by rw [Int.floor_eq_iff]; norm_num : ⌊(1.9 : ℝ)⌋ = 1)]
      decide
    simp only [ofReal, hc, Res.bind_ok]
    decide

/-- C172 is false of comparisons: 90 degrees is less than 1.9 radians, and `deg( 90 ) < rad( 1.9 )` is not so. -/
theorem C172_less_refuted : meaning .degrees 90 < meaning .radians 1.9 ∧ lt .degrees .radians 90 1.9 = .ok false := by
  constructor
  · simp only [meaning]
    have := Real.pi_lt_d2
    linarith
  · have hc : cut 1.9 = .ok 1 := by
      unfold cut
      rw [if_pos (by norm_num), (by rw [Int.floor_eq_iff]; norm_num : ⌊(1.9 : ℝ)⌋ = 1)]
      decide
    simp only [lt, ofReal, hc, Res.bind_ok]
    decide

end IntAngle

end Flut
