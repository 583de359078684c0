import Verif.Props.RotationReal

/-!
# C83: lengths, distances and polar coordinates
-/

namespace Flut

/-! ## C83 -/

theorem sqLength_nonneg (v : Vec3 ℝ) : 0 ≤ v.sqLength := by
  unfold Vec3.sqLength
  nlinarith [mul_self_nonneg v.x, mul_self_nonneg v.y, mul_self_nonneg v.z]

theorem sqLength_eq_zero (v : Vec3 ℝ) : v.sqLength = 0 ↔ v = Vec3.zero := by
  rw [Vec3.ext_iff']
  unfold Vec3.sqLength Vec3.zero
  constructor
  · intro h
    refine ⟨?_, ?_, ?_⟩ <;> rw [← mul_self_eq_zero] <;>
      nlinarith [mul_self_nonneg v.x, mul_self_nonneg v.y, mul_self_nonneg v.z]
  · rintro ⟨h1, h2, h3⟩
    simp_all

/-- `length` is the Euclidean norm: its square is the squared length and the product of the vector with itself, it is zero only
for the null vector, it scales with the vector, and a side of a triangle is no longer than the two others together. -/
theorem C83_length (u v : Vec3 ℝ) (s : ℝ) :
    0 ≤ v.length ∧ v.length ^ 2 = v.sqLength ∧ v.sqLength = v.dot v ∧ (v.length = 0 ↔ v = Vec3.zero) ∧
    (v.smul s).length = |s| * v.length ∧ v.neg.length = v.length ∧ (u.add v).length ≤ u.length + v.length := by
  have hu := sqLength_nonneg u
  have hv := sqLength_nonneg v
  have eu : u.length = Real.sqrt u.sqLength := rfl
  have ev : v.length = Real.sqrt v.sqLength := rfl
  refine ⟨Real.sqrt_nonneg _, ?_, rfl, ?_, ?_, ?_, ?_⟩
  · rw [ev, Real.sq_sqrt hv]
  · rw [ev, Real.sqrt_eq_zero hv, sqLength_eq_zero]
  · have e : (v.smul s).length = Real.sqrt (s ^ 2 * v.sqLength) := by
      unfold Vec3.length Vec3.smul Vec3.sqLength
      congr 1; simp only; ring
    rw [e, Real.sqrt_mul (sq_nonneg s), Real.sqrt_sq_eq_abs, ev]
  · unfold Vec3.length Vec3.neg
    congr 1; simp only; ring
  · rw [eu, ev]
    apply Real.sqrt_le_iff.2
    refine ⟨by positivity, ?_⟩
    have hd : u.dot v ≤ Real.sqrt u.sqLength * Real.sqrt v.sqLength := by
      rw [← Real.sqrt_mul hu]
      apply Real.le_sqrt_of_sq_le
      unfold Vec3.dot Vec3.sqLength
      nlinarith [mul_self_nonneg (u.x * v.y - u.y * v.x), mul_self_nonneg (u.x * v.z - u.z * v.x),
        mul_self_nonneg (u.y * v.z - u.z * v.y)]
    have h1 := Real.sq_sqrt hu
    have h2 := Real.sq_sqrt hv
    have e : (u.add v).x * (u.add v).x + (u.add v).y * (u.add v).y + (u.add v).z * (u.add v).z = u.sqLength + v.sqLength + 2 * u.dot v := by
      unfold Vec3.sqLength Vec3.dot Vec3.add; ring
    rw [e]
    nlinarith

/-- `distance` is the length of the difference and a metric, which moving both points does not change. -/
theorem C83_distance (a b c : Vec3 ℝ) :
    a.distance b = (a.sub b).length ∧ 0 ≤ a.distance b ∧ (a.distance b = 0 ↔ a = b) ∧ a.distance b = b.distance a ∧
    a.distance c ≤ a.distance b + b.distance c ∧ (a.add c).distance (b.add c) = a.distance b := by
  have e : ∀ p q : Vec3 ℝ, p.distance q = (p.sub q).length := fun _ _ => rfl
  refine ⟨rfl, Real.sqrt_nonneg _, ?_, ?_, ?_, ?_⟩
  · rw [e, (C83_length a (a.sub b) 0).2.2.2.1, Vec3.ext_iff', Vec3.ext_iff']
    simp only [Vec3.sub, Vec3.zero, sub_eq_zero]
  · unfold Vec3.distance; congr 1; ring
  · have h := (C83_length (a.sub b) (b.sub c) 0).2.2.2.2.2.2
    have e2 : (a.sub b).add (b.sub c) = a.sub c := by
      rw [Vec3.ext_iff']; simp [Vec3.sub, Vec3.add]
    rw [e2] at h
    exact h
  · unfold Vec3.distance Vec3.add
    congr 1; ring

example : (⟨1, 2, 2⟩ : Vec3 ℝ).length = 3 := by
  have : (1 * 1 + 2 * 2 + 2 * 2 : ℝ) = 3 ^ 2 := by norm_num
  simp only [Vec3.length, this]
  exact Real.sqrt_sq (by norm_num)

/-- `normalized` gives the vector of length one in the same direction when the vector is longer than the threshold, and the
vector itself otherwise; the member function has no threshold and fails for the null vector only. `is_normalized` accepts the
result. -/
theorem C83_normalized (eps reps : ℝ) (he : 0 ≤ eps) (hr : 0 ≤ reps) (v : Vec3 ℝ) :
    (eps < v.length → (v.normalized eps).length = 1 ∧ (v.normalized eps).smul v.length = v ∧ (v.normalized eps).IsNormalized reps) ∧
    (v.length ≤ eps → v.normalized eps = v) ∧
    (v ≠ Vec3.zero → ∃ u, v.normalizedMember = some u ∧ u.length = 1 ∧ u.smul v.length = v) ∧
    (v = Vec3.zero → v.normalizedMember = none) := by
  have one : ∀ u : Vec3 ℝ, u.sqLength = 1 → u.length = 1 := fun u h => length_unit u h
  refine ⟨?_, ?_, ?_, ?_⟩
  · intro h
    obtain ⟨h1, h2⟩ := normalized_spec eps he v h
    refine ⟨one _ h1, h2, ?_⟩
    exact equalsRel_one hr h1
  · intro h
    unfold Vec3.normalized
    dsimp only
    rw [if_neg (not_lt.2 h)]
  · intro h
    have hpos : 0 < v.length := by
      rcases (C83_length v v 0).1.lt_or_eq with h1 | h1
      · exact h1
      · exact absurd ((C83_length v v 0).2.2.2.1.1 h1.symm) h
    obtain ⟨h1, h2⟩ := normalized_spec 0 le_rfl v hpos
    refine ⟨v.normalized 0, ?_, one _ h1, h2⟩
    unfold Vec3.normalizedMember Vec3.normalized divNum
    dsimp only
    rw [if_neg hpos.ne', if_pos hpos]
    rfl
  · intro h
    have : v.length = 0 := (C83_length v v 0).2.2.2.1.2 h
    simp [Vec3.normalizedMember, divNum, this]

/-- A normalized quaternion has length one and is the original divided by its length. -/
theorem C83_quat_normalized (eps : ℝ) (he : 0 ≤ eps) (q : Quat ℝ) :
    q.length ^ 2 = q.sqLength ∧ (q.length ≤ eps → q.normalized eps = q) ∧
    (eps < q.length → (q.normalized eps).length = 1 ∧ (q.normalized eps).sqLength = 1 ∧
      q = ⟨q.length * (q.normalized eps).w, q.length * (q.normalized eps).x, q.length * (q.normalized eps).y,
        q.length * (q.normalized eps).z⟩) := by
  have hnn : 0 ≤ q.w * q.w + q.x * q.x + q.y * q.y + q.z * q.z := by
    nlinarith [mul_self_nonneg q.x, mul_self_nonneg q.y, mul_self_nonneg q.z, mul_self_nonneg q.w]
  have hl : Real.sqrt (q.x * q.x + q.y * q.y + q.z * q.z + q.w * q.w) = q.length := by
    unfold Quat.length; congr 1; ring
  have hsq : q.length * q.length = q.w * q.w + q.x * q.x + q.y * q.y + q.z * q.z := Real.mul_self_sqrt hnn
  refine ⟨by rw [sq, hsq]; rfl, ?_, ?_⟩
  · intro h
    unfold Quat.normalized
    dsimp only
    rw [hl, if_neg (not_lt.2 h)]
  · intro h
    have hne : q.length ≠ 0 := (lt_of_le_of_lt he h).ne'
    have e : q.normalized eps = ⟨q.w * (1 / q.length), q.x * (1 / q.length), q.y * (1 / q.length), q.z * (1 / q.length)⟩ := by
      unfold Quat.normalized
      dsimp only
      rw [hl, if_pos h]
    have h1 : (q.normalized eps).sqLength = 1 := by
      rw [e]
      unfold Quat.sqLength
      field_simp
      linear_combination -hsq
    refine ⟨?_, h1, ?_⟩
    · have : (q.normalized eps).length = Real.sqrt (q.normalized eps).sqLength := rfl
      rw [this, h1, Real.sqrt_one]
    · rw [e, Quat.ext_iff']
      dsimp only
      refine ⟨?_, ?_, ?_, ?_⟩ <;> field_simp

/-- Polar coordinates: the vector is as long as the radius, its angle to the y-axis is the inclination, and its part across the
y-axis has the azimuth, measured from the z-axis towards the x-axis. -/
theorem C83_polar (pi : ℝ) {u : AngleUnit} (radius : ℝ) (incl azim : Angle u ℝ) (hr : 0 ≤ radius) :
    (vec3FromPolar pi radius incl azim).length = radius ∧
    (vec3FromPolar pi radius incl azim).dot Vec3.unitY = radius * Real.cos (incl.radValue pi) ∧
    (vec3FromPolar pi radius incl azim).x * Real.cos (azim.radValue pi) =
      (vec3FromPolar pi radius incl azim).z * Real.sin (azim.radValue pi) ∧
    (vec3FromPolar pi radius incl azim).x * Real.sin (azim.radValue pi) +
      (vec3FromPolar pi radius incl azim).z * Real.cos (azim.radValue pi) = radius * Real.sin (incl.radValue pi) := by
  have h1 := Real.sin_sq_add_cos_sq (incl.radValue pi)
  have h2 := Real.sin_sq_add_cos_sq (azim.radValue pi)
  refine ⟨?_, ?_, ?_, ?_⟩
  · have e : (vec3FromPolar pi radius incl azim).length = Real.sqrt (radius ^ 2) := by
      unfold Vec3.length vec3FromPolar
      congr 1
      dsimp only
      linear_combination radius ^ 2 * Real.sin (incl.radValue pi) ^ 2 * h2 + radius ^ 2 * h1
    rw [e, Real.sqrt_sq hr]
  · simp [vec3FromPolar, Vec3.dot, Vec3.unitY]
  · simp only [vec3FromPolar]; ring
  · simp only [vec3FromPolar]
    linear_combination radius * Real.sin (incl.radValue pi) * h2

example : vec3FromPolar Real.pi 2 (⟨Real.pi / 2⟩ : Angle .radians ℝ) ⟨0⟩ = ⟨0, 0, 2⟩ := by
  rw [Vec3.ext_iff']
  simp [vec3FromPolar, Angle.radValue, convertAngle]

variable {K : Type} [Field K] [DecidableEq K]

/-- Products by component, components by index, the null test and unit vectors agree. -/
theorem C83_components (a b : Vec3 K) (i : Nat) :
    (a.mask b).comp i = (do let x ← a.comp i; let y ← b.comp i; some (x * y)) ∧
    (a.isNull = true ↔ a = Vec3.zero) ∧ (a.comp i = none ↔ 3 ≤ i) ∧
    (∀ j, j < 3 → (Vec3.unit j : Vec3 K).comp i = if 3 ≤ i then none else some (if i = j then 1 else 0)) ∧
    (∀ j, j < 3 → some (a.dot (Vec3.unit j)) = a.comp j) := by
  refine ⟨?_, ?_, ?_, ?_, ?_⟩
  · rcases i with _ | _ | _ | i <;> rfl
  · simp [Vec3.isNull, Vec3.zero, Vec3.ext_iff', and_assoc]
  · rcases i with _ | _ | _ | i <;> simp [Vec3.comp]
  · intro j hj
    have : j = 0 ∨ j = 1 ∨ j = 2 := by omega
    rcases this with rfl | rfl | rfl <;> rcases i with _ | _ | _ | i <;> simp [Vec3.comp, Vec3.unit]
  · intro j hj
    have : j = 0 ∨ j = 1 ∨ j = 2 := by omega
    rcases this with rfl | rfl | rfl <;> simp [Vec3.comp, Vec3.unit, Vec3.dot]

end Flut
