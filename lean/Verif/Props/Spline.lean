import Verif.Model.Spline
import Verif.Spec.Spline
import Mathlib.Tactic.Module
import Mathlib.Tactic.FieldSimp
import Mathlib.Tactic.Ring
import Mathlib.Tactic.Linarith
import Mathlib.Tactic.Positivity
import Mathlib.Algebra.BigOperators.Group.List.Basic

/-! # C95: spline segments and their length -/

namespace Flut

open Spec

variable {P : Type} [NormedAddCommGroup P] [NormedSpace ℝ P]

/-- What the specification of the cubic curve promises: where it begins and ends, and how fast. -/
theorem C95_hermite (p q m n : P) : hermite p q m n 0 = p ∧ hermite p q m n 1 = q ∧
    HasDerivAt (hermite p q m n) m 0 ∧ HasDerivAt (hermite p q m n) n 1 := by
  have hd : ∀ t, HasDerivAt (hermite p q m n)
      ((6 * t ^ 2 - 6 * t) • p + (3 * t ^ 2 - 4 * t + 1) • m + (-6 * t ^ 2 + 6 * t) • q + (3 * t ^ 2 - 2 * t) • n) t := by
    intro t
    have h1 : HasDerivAt (fun t : ℝ => t) 1 t := hasDerivAt_id t
    have h2 : HasDerivAt (fun t : ℝ => t ^ 2) (2 * t) t := by simpa using hasDerivAt_pow 2 t
    have h3 : HasDerivAt (fun t : ℝ => t ^ 3) (3 * t ^ 2) t := by simpa using hasDerivAt_pow 3 t
    have e1 : HasDerivAt (fun t : ℝ => 2 * t ^ 3 - 3 * t ^ 2 + 1) (6 * t ^ 2 - 6 * t) t := by
      have := ((h3.const_mul 2).sub (h2.const_mul 3)).add_const (1 : ℝ)
      exact this.congr_deriv (by ring)
    have e2 : HasDerivAt (fun t : ℝ => t ^ 3 - 2 * t ^ 2 + t) (3 * t ^ 2 - 4 * t + 1) t := by
      have := (h3.sub (h2.const_mul 2)).add h1
      exact this.congr_deriv (by ring)
    have e3 : HasDerivAt (fun t : ℝ => -2 * t ^ 3 + 3 * t ^ 2) (-6 * t ^ 2 + 6 * t) t := by
      have := (h3.const_mul (-2)).add (h2.const_mul 3)
      exact this.congr_deriv (by ring)
    have e4 : HasDerivAt (fun t : ℝ => t ^ 3 - t ^ 2) (3 * t ^ 2 - 2 * t) t := h3.sub h2
    exact ((e1.smul_const p).add (e2.smul_const m)).add (e3.smul_const q) |>.add (e4.smul_const n)
  refine ⟨?_, ?_, ?_, ?_⟩
  · unfold hermite; simp
  · unfold hermite
    have h1 : (2 * (1 : ℝ) ^ 3 - 3 * 1 ^ 2 + 1) = 0 := by norm_num
    have h2 : ((1 : ℝ) ^ 3 - 2 * 1 ^ 2 + 1) = 0 := by norm_num
    have h3 : (-2 * (1 : ℝ) ^ 3 + 3 * 1 ^ 2) = 1 := by norm_num
    have h4 : ((1 : ℝ) ^ 3 - 1 ^ 2) = 0 := by norm_num
    rw [h1, h2, h3, h4]; simp
  · exact (hd 0).congr_deriv (by simp)
  · refine (hd 1).congr_deriv ?_
    have h1 : (6 * (1 : ℝ) ^ 2 - 6 * 1) = 0 := by norm_num
    have h2 : (3 * (1 : ℝ) ^ 2 - 4 * 1 + 1) = 0 := by norm_num
    have h3 : (-6 * (1 : ℝ) ^ 2 + 6 * 1) = 0 := by norm_num
    have h4 : (3 * (1 : ℝ) ^ 2 - 2 * 1) = 1 := by norm_num
    rw [h1, h2, h3, h4]; simp

/-- A segment is the cubic curve from the second to the third point whose velocity at either is half the way between its
neighbours; so the next segment goes on with the same velocity. -/
theorem C95_segment (p0 p1 p2 p3 : P) (t : ℝ) :
    (CatmullRom.ofPoints p0 p1 p2 p3).eval t = hermite p1 p2 ((1 / 2 : ℝ) • (p2 - p0)) ((1 / 2 : ℝ) • (p3 - p1)) t := by
  unfold CatmullRom.eval CatmullRom.ofPoints hermite
  simp only
  module

/-- The other kind of segment, for neighbouring points that differ: the cubic curve from the second to the third point whose
velocity at either is that of a point that needs `distance ^ alpha` from each point to the next, times what it needs here. -/
theorem C95_alpha (p0 p1 p2 p3 : P) (alpha t : ℝ) (h01 : p0 ≠ p1) (h12 : p1 ≠ p2) (h23 : p2 ≠ p3) :
    (CatmullRomAlpha.ofPoints p0 p1 p2 p3 alpha).eval t =
      .ok (hermite p1 p2 ((dist p1 p2 ^ alpha) • tangent p0 p1 p2 (dist p0 p1 ^ alpha) (dist p1 p2 ^ alpha))
        ((dist p1 p2 ^ alpha) • tangent p1 p2 p3 (dist p1 p2 ^ alpha) (dist p2 p3 ^ alpha)) t) := by
  have h1 : 0 < dist p0 p1 ^ alpha := Real.rpow_pos_of_pos (dist_pos.2 h01) _
  have h2 : 0 < dist p1 p2 ^ alpha := Real.rpow_pos_of_pos (dist_pos.2 h12) _
  have h3 : 0 < dist p2 p3 ^ alpha := Real.rpow_pos_of_pos (dist_pos.2 h23) _
  unfold CatmullRomAlpha.eval CatmullRomAlpha.ofPoints
  simp only
  generalize dist p0 p1 ^ alpha = d at *
  generalize dist p1 p2 ^ alpha = e at *
  generalize dist p2 p3 ^ alpha = f at *
  rw [if_neg]
  · congr 1
    unfold hermite tangent
    have e1 : d + e - d = e := by ring
    have e2 : d + e + f - (d + e) = f := by ring
    have e3 : d + e + f - d = e + f := by ring
    rw [e1, e2, e3, sub_zero, sub_zero]
    have hd := h1.ne'
    have he := h2.ne'
    have hf := h3.ne'
    have hde : d + e ≠ 0 := by positivity
    have hef : e + f ≠ 0 := by positivity
    match_scalars <;> field_simp <;> ring
  · rintro (h | h | h | h | h) <;> linarith

/-- Coinciding neighbours are not handled. -/
theorem C95_alpha_refuted (p0 p1 p2 p3 : P) (alpha t : ℝ) (ha : alpha ≠ 0) (h : p0 = p1 ∨ p1 = p2 ∨ p2 = p3) :
    (CatmullRomAlpha.ofPoints p0 p1 p2 p3 alpha).eval t = .ub := by
  unfold CatmullRomAlpha.eval CatmullRomAlpha.ofPoints
  simp only
  rw [if_pos]
  rcases h with rfl | rfl | rfl
  · left; simp [Real.zero_rpow ha]
  · right; left; simp [Real.zero_rpow ha]
  · right; right; left; simp [Real.zero_rpow ha]

example : (CatmullRomAlpha.ofPoints (0 : ℝ) 1 2 3 1).eval (1 / 2) = .ok (3 / 2) := by
  rw [C95_alpha _ _ _ _ _ _ (by norm_num) (by norm_num) (by norm_num)]
  congr 1
  simp only [hermite, tangent, Real.dist_eq, Real.rpow_one, smul_eq_mul]
  norm_num [abs_of_neg]

omit [NormedSpace ℝ P] in
theorem splineLengthLoop_eq (spline : ℝ → P) (t0 t1 : ℝ) (steps : Nat) (n i : Nat) (d : ℝ) :
    splineLengthLoop spline t0 t1 steps n (i + 1) (spline (t0 + (t1 - t0) * i / steps)) d =
      d + polygonLength (fun k => spline (t0 + (t1 - t0) * ((i + k : Nat) : ℝ) / steps)) n := by
  induction n generalizing i d with
  | zero => simp [splineLengthLoop, polygonLength]
  | succ n ih =>
    rw [splineLengthLoop]
    have := ih (i + 1) (d + dist (spline (t0 + (t1 - t0) * i / steps)) (spline (t0 + (t1 - t0) * ((i + 1 : Nat) : ℝ) / steps)))
    rw [this]
    unfold polygonLength
    rw [List.range_succ_eq_map, List.map_cons, List.sum_cons, List.map_map, add_assoc]
    congr 2
    congr 1
    apply List.map_congr_left
    intro k _
    have e1 : i + 1 + k = i + k.succ := by omega
    have e2 : i + 1 + (k + 1) = i + (k.succ + 1) := by omega
    simp only [Function.comp_apply, e1, e2]

/-- The length that is computed is that of the polygon through `steps + 1` points of the curve, equally spaced in time. -/
theorem C95_length (spline : ℝ → P) (t0 t1 : ℝ) (steps : Nat) :
    splineLength spline t0 t1 steps = polygonLength (fun k => spline (t0 + (t1 - t0) * k / steps)) steps := by
  have := splineLengthLoop_eq spline t0 t1 steps steps 0 0
  simpa [splineLength] using this

omit [NormedSpace ℝ P] in
theorem polygon_dist (f : Nat → P) (n : Nat) : dist (f 0) (f n) ≤ polygonLength f n := by
  induction n with
  | zero => simp [polygonLength]
  | succ n ih =>
    unfold polygonLength at ih ⊢
    rw [List.range_succ, List.map_append, List.sum_append]
    have := dist_triangle (f 0) (f n) (f (n + 1))
    simp
    linarith

omit [NormedSpace ℝ P] in
theorem polygon_add (f : Nat → P) (m n : Nat) : polygonLength f (m + n) = polygonLength f m + polygonLength (fun k => f (m + k)) n := by
  unfold polygonLength
  rw [List.range_add, List.map_append, List.sum_append, List.map_map]
  rfl

omit [NormedSpace ℝ P] in
theorem polygon_refine (f : Nat → P) (m n : Nat) : polygonLength (fun k => f (m * k)) n ≤ polygonLength f (m * n) := by
  induction n with
  | zero => simp [polygonLength]
  | succ n ih =>
    have e : polygonLength (fun k => f (m * k)) (n + 1) = polygonLength (fun k => f (m * k)) n + dist (f (m * n)) (f (m * (n + 1))) := by
      unfold polygonLength
      rw [List.range_succ, List.map_append, List.sum_append]
      simp
    rw [e, Nat.mul_add, Nat.mul_one, polygon_add]
    have := polygon_dist (fun k => f (m * n + k)) m
    simp at this
    linarith

/-- It is at least the distance of the ends, and does not get smaller if the number of steps is multiplied. -/
theorem C95_length_bounds (spline : ℝ → P) (t0 t1 : ℝ) (steps m : Nat) (hs : 0 < steps) (hm : 0 < m) :
    dist (spline t0) (spline t1) ≤ splineLength spline t0 t1 steps ∧
    splineLength spline t0 t1 steps ≤ splineLength spline t0 t1 (m * steps) := by
  have hs' : (steps : ℝ) ≠ 0 := by positivity
  have hm' : (m : ℝ) ≠ 0 := by positivity
  constructor
  · rw [C95_length]
    have := polygon_dist (fun k : Nat => spline (t0 + (t1 - t0) * k / steps)) steps
    have e : t0 + (t1 - t0) * steps / steps = t1 := by field_simp; ring
    simp only [e, Nat.cast_zero, mul_zero, zero_div, add_zero] at this
    exact this
  · rw [C95_length, C95_length]
    have := polygon_refine (fun k : Nat => spline (t0 + (t1 - t0) * k / ((m * steps : Nat) : ℝ))) m steps
    refine le_trans (le_of_eq ?_) this
    congr 1
    funext k
    congr 1
    push_cast
    field_simp

/-- On a straight line at constant speed it is exact. -/
theorem C95_length_line (p v : P) (t0 t1 : ℝ) (steps : Nat) (hs : 0 < steps) :
    splineLength (fun t => p + t • v) t0 t1 steps = dist (p + t0 • v) (p + t1 • v) := by
  have hs' : (steps : ℝ) ≠ 0 := by positivity
  rw [C95_length]
  have e : ∀ k : Nat, dist (p + (t0 + (t1 - t0) * k / steps) • v) (p + (t0 + (t1 - t0) * ((k + 1 : Nat) : ℝ) / steps) • v) =
      |t1 - t0| * ‖v‖ / steps := by
    intro k
    have : (p + (t0 + (t1 - t0) * k / steps) • v) - (p + (t0 + (t1 - t0) * ((k + 1 : Nat) : ℝ) / steps) • v) =
        ((t0 - t1) / steps) • v := by
      push_cast
      match_scalars <;> field_simp <;> ring
    rw [dist_eq_norm, this, norm_smul, Real.norm_eq_abs, abs_div, abs_sub_comm, Nat.abs_cast]
    ring
  have e2 : dist (p + t0 • v) (p + t1 • v) = |t1 - t0| * ‖v‖ := by
    rw [dist_eq_norm]
    have : (p + t0 • v) - (p + t1 • v) = (t0 - t1) • v := by module
    rw [this, norm_smul, Real.norm_eq_abs, abs_sub_comm]
  rw [e2]
  unfold polygonLength
  simp only [e]
  rw [List.map_const', List.sum_replicate, List.length_range, nsmul_eq_mul]
  field_simp

example : splineLength (fun t : ℝ => (0 : ℝ) + t • (2 : ℝ)) 0 3 7 = 6 := by
  rw [C95_length_line _ _ _ _ _ (by norm_num)]
  norm_num [Real.dist_eq]

end Flut
