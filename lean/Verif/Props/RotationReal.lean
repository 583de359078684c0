import Verif.Props.Rotation

/-!
# Rotations from axes, angles and directions (C60–C62)
-/

namespace Flut

/-! ## C60 -/

/-- A right-handed orthonormal frame. -/
structure Frame (x y z : Vec3 ℝ) : Prop where
  xx : x.dot x = 1
  yy : y.dot y = 1
  zz : z.dot z = 1
  xy : x.dot y = 0
  yz : y.dot z = 0
  zx : z.dot x = 0
  right : x.cross y = z

/-- The nine cofactor equations and the norms and products of rows. -/
theorem Frame.facts {x y z : Vec3 ℝ} (h : Frame x y z) :
    x.cross y = z ∧ y.cross z = x ∧ z.cross x = y ∧
    x.x * x.x + y.x * y.x + z.x * z.x = 1 ∧ x.y * x.y + y.y * y.y + z.y * z.y = 1 ∧ x.z * x.z + y.z * y.z + z.z * z.z = 1 ∧
    x.x * x.y + y.x * y.y + z.x * z.y = 0 ∧ x.y * x.z + y.y * y.z + z.y * z.z = 0 ∧ x.z * x.x + y.z * y.x + z.z * z.x = 0 := by
  obtain ⟨xx, yy, zz, xy, yz, zx, hz⟩ := h
  obtain ⟨a, b, c⟩ := x
  obtain ⟨d, e, f⟩ := y
  obtain ⟨g, h, i⟩ := z
  simp only [Vec3.dot, Vec3.cross, Vec3.mk.injEq] at *
  obtain ⟨h1, h2, h3⟩ := hz
  subst h1 h2 h3
  refine ⟨⟨rfl, rfl, rfl⟩, ⟨?_, ?_, ?_⟩, ⟨?_, ?_, ?_⟩, ?_, ?_, ?_, ?_, ?_, ?_⟩
  · linear_combination a * yy - d * xy
  · linear_combination b * yy - e * xy
  · linear_combination c * yy - f * xy
  · linear_combination d * xx - a * xy
  · linear_combination e * xx - b * xy
  · linear_combination f * xx - c * xy
  · linear_combination (1 - d * d) * xx + (b * b + c * c) * yy - (b * e + c * f - a * d) * xy
  · linear_combination (1 - e * e) * xx + (a * a + c * c) * yy - (a * d + c * f - b * e) * xy
  · linear_combination (1 - f * f) * xx + (a * a + b * b) * yy - (a * d + b * e - c * f) * xy
  · linear_combination (-d * e) * xx + (-a * b) * yy + (a * e + b * d) * xy
  · linear_combination (-e * f) * xx + (-b * c) * yy + (b * f + c * e) * xy
  · linear_combination (-d * f) * xx + (-a * c) * yy + (a * f + c * d) * xy

/-- The rotation is determined by the products of components of the quaternion. -/
theorem rot_of_products (q : Quat ℝ) {a b c d e f g h i : ℝ}
    (hww : 4 * (q.w * q.w) = 1 + a + e + i)
    (hxx : 4 * (q.x * q.x) = 1 + a - e - i)
    (hyy : 4 * (q.y * q.y) = 1 - a + e - i)
    (hzz : 4 * (q.z * q.z) = 1 - a - e + i)
    (hwx : 4 * (q.w * q.x) = f - h)
    (hwy : 4 * (q.w * q.y) = g - c)
    (hwz : 4 * (q.w * q.z) = b - d)
    (hxy : 4 * (q.x * q.y) = b + d)
    (hxz : 4 * (q.x * q.z) = c + g)
    (hyz : 4 * (q.y * q.z) = f + h)
    : q.sqLength = 1 ∧ q.rot Vec3.unitX = ⟨a, b, c⟩ ∧ q.rot Vec3.unitY = ⟨d, e, f⟩ ∧ q.rot Vec3.unitZ = ⟨g, h, i⟩ := by
  refine ⟨?_, ?_, ?_, ?_⟩
  · simp only [Quat.sqLength]
    linarith
  all_goals
    simp only [Quat.rot, Vec3.unitX, Vec3.unitY, Vec3.unitZ, Vec3.cross, Vec3.add, Vec3.smul, Vec3.mk.injEq]
    refine ⟨?_, ?_, ?_⟩ <;> ring_nf <;> ring_nf at * <;> linarith

theorem Frame.rank_w {a b c d e f g h i : ℝ} (F : Frame ⟨a, b, c⟩ ⟨d, e, f⟩ ⟨g, h, i⟩) :
    (f - h) * (f - h) = (1 + a + e + i) * (1 + a - e - i) ∧
    (f - h) * (g - c) = (1 + a + e + i) * (b + d) ∧
    (f - h) * (b - d) = (1 + a + e + i) * (c + g) ∧
    (g - c) * (g - c) = (1 + a + e + i) * (1 - a + e - i) ∧
    (g - c) * (b - d) = (1 + a + e + i) * (f + h) ∧
    (b - d) * (b - d) = (1 + a + e + i) * (1 - a - e + i) := by
  obtain ⟨h1, h2, h3, r1, r2, r3, r4, r5, r6⟩ := F.facts
  obtain ⟨xx, yy, zz, xy, yz, zx, _⟩ := F
  simp only [Vec3.dot, Vec3.cross, Vec3.mk.injEq] at *
  obtain ⟨h11, h12, h13⟩ := h1
  obtain ⟨h21, h22, h23⟩ := h2
  obtain ⟨h31, h32, h33⟩ := h3
  refine ⟨?_, ?_, ?_, ?_, ?_, ?_⟩ <;> linarith

theorem Frame.rank_x {a b c d e f g h i : ℝ} (F : Frame ⟨a, b, c⟩ ⟨d, e, f⟩ ⟨g, h, i⟩) :
    (f - h) * (f - h) = (1 + a - e - i) * (1 + a + e + i) ∧
    (f - h) * (b + d) = (1 + a - e - i) * (g - c) ∧
    (f - h) * (c + g) = (1 + a - e - i) * (b - d) ∧
    (b + d) * (b + d) = (1 + a - e - i) * (1 - a + e - i) ∧
    (b + d) * (c + g) = (1 + a - e - i) * (f + h) ∧
    (c + g) * (c + g) = (1 + a - e - i) * (1 - a - e + i) := by
  obtain ⟨h1, h2, h3, r1, r2, r3, r4, r5, r6⟩ := F.facts
  obtain ⟨xx, yy, zz, xy, yz, zx, _⟩ := F
  simp only [Vec3.dot, Vec3.cross, Vec3.mk.injEq] at *
  obtain ⟨h11, h12, h13⟩ := h1
  obtain ⟨h21, h22, h23⟩ := h2
  obtain ⟨h31, h32, h33⟩ := h3
  refine ⟨?_, ?_, ?_, ?_, ?_, ?_⟩ <;> linarith

theorem Frame.rank_y {a b c d e f g h i : ℝ} (F : Frame ⟨a, b, c⟩ ⟨d, e, f⟩ ⟨g, h, i⟩) :
    (g - c) * (g - c) = (1 - a + e - i) * (1 + a + e + i) ∧
    (g - c) * (b + d) = (1 - a + e - i) * (f - h) ∧
    (g - c) * (f + h) = (1 - a + e - i) * (b - d) ∧
    (b + d) * (b + d) = (1 - a + e - i) * (1 + a - e - i) ∧
    (b + d) * (f + h) = (1 - a + e - i) * (c + g) ∧
    (f + h) * (f + h) = (1 - a + e - i) * (1 - a - e + i) := by
  obtain ⟨h1, h2, h3, r1, r2, r3, r4, r5, r6⟩ := F.facts
  obtain ⟨xx, yy, zz, xy, yz, zx, _⟩ := F
  simp only [Vec3.dot, Vec3.cross, Vec3.mk.injEq] at *
  obtain ⟨h11, h12, h13⟩ := h1
  obtain ⟨h21, h22, h23⟩ := h2
  obtain ⟨h31, h32, h33⟩ := h3
  refine ⟨?_, ?_, ?_, ?_, ?_, ?_⟩ <;> linarith

theorem Frame.rank_z {a b c d e f g h i : ℝ} (F : Frame ⟨a, b, c⟩ ⟨d, e, f⟩ ⟨g, h, i⟩) :
    (b - d) * (b - d) = (1 - a - e + i) * (1 + a + e + i) ∧
    (b - d) * (c + g) = (1 - a - e + i) * (f - h) ∧
    (b - d) * (f + h) = (1 - a - e + i) * (g - c) ∧
    (c + g) * (c + g) = (1 - a - e + i) * (1 + a - e - i) ∧
    (c + g) * (f + h) = (1 - a - e + i) * (b + d) ∧
    (f + h) * (f + h) = (1 - a - e + i) * (1 - a + e - i) := by
  obtain ⟨h1, h2, h3, r1, r2, r3, r4, r5, r6⟩ := F.facts
  obtain ⟨xx, yy, zz, xy, yz, zx, _⟩ := F
  simp only [Vec3.dot, Vec3.cross, Vec3.mk.injEq] at *
  obtain ⟨h11, h12, h13⟩ := h1
  obtain ⟨h21, h22, h23⟩ := h2
  obtain ⟨h31, h32, h33⟩ := h3
  refine ⟨?_, ?_, ?_, ?_, ?_, ?_⟩ <;> linarith

theorem Frame.pivot_w {a b c d e f g h i : ℝ} (F : Frame ⟨a, b, c⟩ ⟨d, e, f⟩ ⟨g, h, i⟩) (hp : 0 < 1 + a + e + i) :
    ∃ r, sqrtNum (1 + a + e + i) = some r ∧ divNum 0.5 r = some (0.5 / r) ∧ ∃ q : Quat ℝ, q = ⟨0.5 * r, (f - h) * (0.5 / r), (g - c) * (0.5 / r), (b - d) * (0.5 / r)⟩ ∧
    q.sqLength = 1 ∧ q.rot Vec3.unitX = ⟨a, b, c⟩ ∧ q.rot Vec3.unitY = ⟨d, e, f⟩ ∧ q.rot Vec3.unitZ = ⟨g, h, i⟩ := by
  have hr : 0 < Real.sqrt (1 + a + e + i) := Real.sqrt_pos.2 hp
  have hrr : Real.sqrt (1 + a + e + i) * Real.sqrt (1 + a + e + i) = 1 + a + e + i := Real.mul_self_sqrt hp.le
  refine ⟨Real.sqrt (1 + a + e + i), if_pos hp.le, if_neg hr.ne', _, rfl, ?_⟩
  obtain ⟨k1, k2, k3, k4, k5, k6⟩ := F.rank_w
  generalize Real.sqrt (1 + a + e + i) = r at hr hrr
  have hne := hr.ne'
  have hq : ∀ u v w, u * v = (1 + a + e + i) * w → 4 * (u * (0.5 / r) * (v * (0.5 / r))) = w := by
    intro u v w huv
    rw [← hrr] at huv
    field_simp
    linear_combination huv
  have hl : ∀ u, 4 * (0.5 * r * (u * (0.5 / r))) = u := by
    intro u
    field_simp
    ring
  apply rot_of_products
  · dsimp only; linear_combination hrr
  · exact hq _ _ _ k1
  · exact hq _ _ _ k4
  · exact hq _ _ _ k6
  · exact hl _
  · exact hl _
  · exact hl _
  · exact hq _ _ _ k2
  · exact hq _ _ _ k3
  · exact hq _ _ _ k5

theorem Frame.pivot_x {a b c d e f g h i : ℝ} (F : Frame ⟨a, b, c⟩ ⟨d, e, f⟩ ⟨g, h, i⟩) (hp : 0 < 1 + a - e - i) :
    ∃ r, sqrtNum (1 + a - e - i) = some r ∧ divNum 0.5 r = some (0.5 / r) ∧ ∃ q : Quat ℝ, q = ⟨(f - h) * (0.5 / r), 0.5 * r, (b + d) * (0.5 / r), (c + g) * (0.5 / r)⟩ ∧
    q.sqLength = 1 ∧ q.rot Vec3.unitX = ⟨a, b, c⟩ ∧ q.rot Vec3.unitY = ⟨d, e, f⟩ ∧ q.rot Vec3.unitZ = ⟨g, h, i⟩ := by
  have hr : 0 < Real.sqrt (1 + a - e - i) := Real.sqrt_pos.2 hp
  have hrr : Real.sqrt (1 + a - e - i) * Real.sqrt (1 + a - e - i) = 1 + a - e - i := Real.mul_self_sqrt hp.le
  refine ⟨Real.sqrt (1 + a - e - i), if_pos hp.le, if_neg hr.ne', _, rfl, ?_⟩
  obtain ⟨k1, k2, k3, k4, k5, k6⟩ := F.rank_x
  generalize Real.sqrt (1 + a - e - i) = r at hr hrr
  have hne := hr.ne'
  have hq : ∀ u v w, u * v = (1 + a - e - i) * w → 4 * (u * (0.5 / r) * (v * (0.5 / r))) = w := by
    intro u v w huv
    rw [← hrr] at huv
    field_simp
    linear_combination huv
  have hl : ∀ u, 4 * (0.5 * r * (u * (0.5 / r))) = u := by
    intro u
    field_simp
    ring
  apply rot_of_products
  · exact hq _ _ _ k1
  · dsimp only; linear_combination hrr
  · exact hq _ _ _ k4
  · exact hq _ _ _ k6
  · dsimp only; linear_combination hl (f - h)
  · exact hq _ _ _ k2
  · exact hq _ _ _ k3
  · exact hl _
  · exact hl _
  · exact hq _ _ _ k5

theorem Frame.pivot_y {a b c d e f g h i : ℝ} (F : Frame ⟨a, b, c⟩ ⟨d, e, f⟩ ⟨g, h, i⟩) (hp : 0 < 1 - a + e - i) :
    ∃ r, sqrtNum (1 - a + e - i) = some r ∧ divNum 0.5 r = some (0.5 / r) ∧ ∃ q : Quat ℝ, q = ⟨(g - c) * (0.5 / r), (b + d) * (0.5 / r), 0.5 * r, (f + h) * (0.5 / r)⟩ ∧
    q.sqLength = 1 ∧ q.rot Vec3.unitX = ⟨a, b, c⟩ ∧ q.rot Vec3.unitY = ⟨d, e, f⟩ ∧ q.rot Vec3.unitZ = ⟨g, h, i⟩ := by
  have hr : 0 < Real.sqrt (1 - a + e - i) := Real.sqrt_pos.2 hp
  have hrr : Real.sqrt (1 - a + e - i) * Real.sqrt (1 - a + e - i) = 1 - a + e - i := Real.mul_self_sqrt hp.le
  refine ⟨Real.sqrt (1 - a + e - i), if_pos hp.le, if_neg hr.ne', _, rfl, ?_⟩
  obtain ⟨k1, k2, k3, k4, k5, k6⟩ := F.rank_y
  generalize Real.sqrt (1 - a + e - i) = r at hr hrr
  have hne := hr.ne'
  have hq : ∀ u v w, u * v = (1 - a + e - i) * w → 4 * (u * (0.5 / r) * (v * (0.5 / r))) = w := by
    intro u v w huv
    rw [← hrr] at huv
    field_simp
    linear_combination huv
  have hl : ∀ u, 4 * (0.5 * r * (u * (0.5 / r))) = u := by
    intro u
    field_simp
    ring
  apply rot_of_products
  · exact hq _ _ _ k1
  · exact hq _ _ _ k4
  · dsimp only; linear_combination hrr
  · exact hq _ _ _ k6
  · exact hq _ _ _ k2
  · dsimp only; linear_combination hl (g - c)
  · exact hq _ _ _ k3
  · dsimp only; linear_combination hl (b + d)
  · exact hq _ _ _ k5
  · exact hl _

theorem Frame.pivot_z {a b c d e f g h i : ℝ} (F : Frame ⟨a, b, c⟩ ⟨d, e, f⟩ ⟨g, h, i⟩) (hp : 0 < 1 - a - e + i) :
    ∃ r, sqrtNum (1 - a - e + i) = some r ∧ divNum 0.5 r = some (0.5 / r) ∧ ∃ q : Quat ℝ, q = ⟨(b - d) * (0.5 / r), (c + g) * (0.5 / r), (f + h) * (0.5 / r), 0.5 * r⟩ ∧
    q.sqLength = 1 ∧ q.rot Vec3.unitX = ⟨a, b, c⟩ ∧ q.rot Vec3.unitY = ⟨d, e, f⟩ ∧ q.rot Vec3.unitZ = ⟨g, h, i⟩ := by
  have hr : 0 < Real.sqrt (1 - a - e + i) := Real.sqrt_pos.2 hp
  have hrr : Real.sqrt (1 - a - e + i) * Real.sqrt (1 - a - e + i) = 1 - a - e + i := Real.mul_self_sqrt hp.le
  refine ⟨Real.sqrt (1 - a - e + i), if_pos hp.le, if_neg hr.ne', _, rfl, ?_⟩
  obtain ⟨k1, k2, k3, k4, k5, k6⟩ := F.rank_z
  generalize Real.sqrt (1 - a - e + i) = r at hr hrr
  have hne := hr.ne'
  have hq : ∀ u v w, u * v = (1 - a - e + i) * w → 4 * (u * (0.5 / r) * (v * (0.5 / r))) = w := by
    intro u v w huv
    rw [← hrr] at huv
    field_simp
    linear_combination huv
  have hl : ∀ u, 4 * (0.5 * r * (u * (0.5 / r))) = u := by
    intro u
    field_simp
    ring
  apply rot_of_products
  · exact hq _ _ _ k1
  · exact hq _ _ _ k4
  · exact hq _ _ _ k6
  · dsimp only; linear_combination hrr
  · exact hq _ _ _ k2
  · exact hq _ _ _ k3
  · dsimp only; linear_combination hl (b - d)
  · exact hq _ _ _ k5
  · dsimp only; linear_combination hl (c + g)
  · dsimp only; linear_combination hl (f + h)

/-- The result is a unit quaternion that maps the three units to the three axes; no root of a negative number is taken and no
division by zero made. -/
theorem C60_quat_from_axes (x y z : Vec3 ℝ) (F : Frame x y z) : ∃ q, quatFromAxes x y z = some q ∧ q.sqLength = 1 ∧
    q.rot Vec3.unitX = x ∧ q.rot Vec3.unitY = y ∧ q.rot Vec3.unitZ = z := by
  obtain ⟨a, b, c⟩ := x
  obtain ⟨d, e, f⟩ := y
  obtain ⟨g, h, i⟩ := z
  unfold quatFromAxes
  have m00 : mat33FromAxes (⟨a, b, c⟩ : Vec3 ℝ) ⟨d, e, f⟩ ⟨g, h, i⟩ 0 0 = a := rfl
  have m01 : mat33FromAxes (⟨a, b, c⟩ : Vec3 ℝ) ⟨d, e, f⟩ ⟨g, h, i⟩ 0 1 = d := rfl
  have m02 : mat33FromAxes (⟨a, b, c⟩ : Vec3 ℝ) ⟨d, e, f⟩ ⟨g, h, i⟩ 0 2 = g := rfl
  have m10 : mat33FromAxes (⟨a, b, c⟩ : Vec3 ℝ) ⟨d, e, f⟩ ⟨g, h, i⟩ 1 0 = b := rfl
  have m11 : mat33FromAxes (⟨a, b, c⟩ : Vec3 ℝ) ⟨d, e, f⟩ ⟨g, h, i⟩ 1 1 = e := rfl
  have m12 : mat33FromAxes (⟨a, b, c⟩ : Vec3 ℝ) ⟨d, e, f⟩ ⟨g, h, i⟩ 1 2 = h := rfl
  have m20 : mat33FromAxes (⟨a, b, c⟩ : Vec3 ℝ) ⟨d, e, f⟩ ⟨g, h, i⟩ 2 0 = c := rfl
  have m21 : mat33FromAxes (⟨a, b, c⟩ : Vec3 ℝ) ⟨d, e, f⟩ ⟨g, h, i⟩ 2 1 = f := rfl
  have m22 : mat33FromAxes (⟨a, b, c⟩ : Vec3 ℝ) ⟨d, e, f⟩ ⟨g, h, i⟩ 2 2 = i := rfl
  dsimp only
  generalize mat33FromAxes (⟨a, b, c⟩ : Vec3 ℝ) ⟨d, e, f⟩ ⟨g, h, i⟩ = m at *
  rw [m00, m11, m22]
  by_cases ht : a + e + i > 0
  · rw [if_pos ht]
    obtain ⟨r, h1, h2, q, h3, h4⟩ := F.pivot_w (by linarith)
    rw [show a + e + i + 1 = 1 + a + e + i by ring, h1]
    simp only [Option.bind_some, h2]
    refine ⟨q, ?_, h4⟩
    rw [h3, m21, m12, m02, m20, m10, m01]
  · rw [if_neg ht]
    by_cases hea : e > a
    · rw [if_pos hea, m11]
      by_cases hie : i > e
      · rw [if_pos hie]
        simp only [Nat.reduceAdd, Nat.reduceMod, m00, m11, m22]
        obtain ⟨r, h1, h2, q, h3, h4⟩ := F.pivot_z (by linarith)
        rw [show i - a - e + 1 = 1 - a - e + i by ring, h1]
        simp only [Option.bind_some, h2]
        refine ⟨q, ?_, h4⟩
        rw [h3, m10, m01, m02, m20, m12, m21]
        simp only [setXyz, Option.some.injEq, Quat.mk.injEq]
        refine ⟨trivial, ?_, ?_, trivial⟩ <;> ring
      · rw [if_neg hie]
        simp only [Nat.reduceAdd, Nat.reduceMod, m00, m11, m22]
        obtain ⟨r, h1, h2, q, h3, h4⟩ := F.pivot_y (by linarith)
        rw [show e - i - a + 1 = 1 - a + e - i by ring, h1]
        simp only [Option.bind_some, h2]
        refine ⟨q, ?_, h4⟩
        rw [h3, m02, m20, m21, m12, m01, m10]
        simp only [setXyz, Option.some.injEq, Quat.mk.injEq]
        refine ⟨trivial, ?_, trivial, ?_⟩
        · ring_nf
        · trivial
    · rw [if_neg hea, m00]
      by_cases hia : i > a
      · rw [if_pos hia]
        simp only [Nat.reduceAdd, Nat.reduceMod, m00, m11, m22]
        obtain ⟨r, h1, h2, q, h3, h4⟩ := F.pivot_z (by linarith)
        rw [show i - a - e + 1 = 1 - a - e + i by ring, h1]
        simp only [Option.bind_some, h2]
        refine ⟨q, ?_, h4⟩
        rw [h3, m10, m01, m02, m20, m12, m21]
        simp only [setXyz, Option.some.injEq, Quat.mk.injEq]
        refine ⟨trivial, ?_, ?_, trivial⟩ <;> ring
      · rw [if_neg hia]
        simp only [Nat.reduceAdd, Nat.reduceMod, m00, m11, m22]
        obtain ⟨r, h1, h2, q, h3, h4⟩ := F.pivot_x (by linarith)
        rw [show a - e - i + 1 = 1 + a - e - i by ring, h1]
        simp only [Option.bind_some, h2]
        refine ⟨q, ?_, h4⟩
        rw [h3, m21, m12, m10, m01, m20, m02]
        simp only [setXyz]

example : Frame ⟨1, 0, 0⟩ ⟨0, -1, 0⟩ ⟨0, 0, -1⟩ ∧ Frame ⟨0, 1, 0⟩ ⟨0, 0, 1⟩ ⟨1, 0, 0⟩ ∧ Frame ⟨-1, 0, 0⟩ ⟨0, -3 / 5, 4 / 5⟩ ⟨0, 4 / 5, 3 / 5⟩ := by
  refine ⟨?_, ?_, ?_⟩ <;> constructor <;> norm_num [Vec3.dot, Vec3.cross]

/-! ## C61 -/

theorem equalsRel_one {reps : ℝ} (hr : 0 ≤ reps) {v : ℝ} (h : v = 1) : EqualsRel v 1 reps := by
  unfold EqualsRel
  rw [h]
  simpa using hr

theorem quatFromAxisAngle_unit (pi : ℝ) {reps : ℝ} (hr : 0 ≤ reps) {u : AngleUnit} {axis : Vec3 ℝ} (ang : Angle u ℝ)
    (h : axis.sqLength = 1) : quatFromAxisAngle pi reps axis ang = .ok ⟨Real.cos (0.5 * ang.radValue pi),
      Real.sin (0.5 * ang.radValue pi) * axis.x, Real.sin (0.5 * ang.radValue pi) * axis.y, Real.sin (0.5 * ang.radValue pi) * axis.z⟩ :=
  if_pos (equalsRel_one hr h)

/-- For a unit axis the result is a unit quaternion and turns every vector about the axis by the angle (Rodrigues' formula). -/
theorem C61_axis_angle (pi reps : ℝ) (hr : 0 ≤ reps) {u : AngleUnit} (axis : Vec3 ℝ) (ang : Angle u ℝ) (h : axis.sqLength = 1) :
    ∃ q, quatFromAxisAngle pi reps axis ang = .ok q ∧ q.sqLength = 1 ∧ q.rot axis = axis ∧
    ∀ v, q.rot v = ((v.smul (Real.cos (ang.radValue pi))).add ((axis.cross v).smul (Real.sin (ang.radValue pi)))).add
      (axis.smul ((1 - Real.cos (ang.radValue pi)) * axis.dot v)) := by
  obtain ⟨a, b, c⟩ := axis
  have ha : a * a + b * b + c * c = 1 := h
  rw [quatFromAxisAngle_unit pi hr ang h]
  generalize ang.radValue pi = θ
  obtain ⟨t, rfl⟩ : ∃ t, θ = 2 * t := ⟨θ / 2, by ring⟩
  have ht : (0.5 : ℝ) * (2 * t) = t := by ring
  rw [ht, Real.cos_two_mul, Real.sin_two_mul]
  have hsc := Real.sin_sq_add_cos_sq t
  generalize Real.sin t = s at *
  generalize Real.cos t = k at *
  refine ⟨_, rfl, ?_, ?_, ?_⟩
  · simp only [Quat.sqLength]
    linear_combination s ^ 2 * ha + hsc
  · simp only [Quat.rot, Vec3.cross, Vec3.add, Vec3.smul, Vec3.mk.injEq]
    refine ⟨?_, ?_, ?_⟩ <;> ring
  · rintro ⟨x, y, z⟩
    simp only [Quat.rot, Vec3.cross, Vec3.add, Vec3.smul, Vec3.dot, Vec3.mk.injEq]
    refine ⟨?_, ?_, ?_⟩
    · linear_combination (-2 * s ^ 2 * x) * ha + (2 * (a * (a * x + b * y + c * z)) - 2 * x) * hsc
    · linear_combination (-2 * s ^ 2 * y) * ha + (2 * (b * (a * x + b * y + c * z)) - 2 * y) * hsc
    · linear_combination (-2 * s ^ 2 * z) * ha + (2 * (c * (a * x + b * y + c * z)) - 2 * z) * hsc

example : (⟨3 / 5, 0, 4 / 5⟩ : Vec3 ℝ).sqLength = 1 := by norm_num [Vec3.sqLength]

/-- Angles about the same axis add up. -/
theorem C61_additive (pi reps : ℝ) (hr : 0 ≤ reps) {u : AngleUnit} (axis : Vec3 ℝ) (a b : Angle u ℝ) (h : axis.sqLength = 1) :
    ∃ p q r, quatFromAxisAngle pi reps axis a = .ok p ∧ quatFromAxisAngle pi reps axis b = .ok q ∧
      quatFromAxisAngle pi reps axis (a.add b) = .ok r ∧ p.mul q = r := by
  rw [quatFromAxisAngle_unit pi hr a h, quatFromAxisAngle_unit pi hr b h, quatFromAxisAngle_unit pi hr (a.add b) h]
  have e : (a.add b).radValue pi = a.radValue pi + b.radValue pi := by
    cases u
    · simp only [Angle.radValue, Angle.add, convertAngle, degToRad]; ring
    · simp only [Angle.radValue, Angle.add, convertAngle]
  refine ⟨_, _, _, rfl, rfl, rfl, ?_⟩
  have ha : axis.x * axis.x + axis.y * axis.y + axis.z * axis.z = 1 := h
  rw [e, mul_add, Real.cos_add, Real.sin_add]
  generalize Real.sin (0.5 * a.radValue pi) = s1
  generalize Real.cos (0.5 * a.radValue pi) = c1
  generalize Real.sin (0.5 * b.radValue pi) = s2
  generalize Real.cos (0.5 * b.radValue pi) = c2
  simp only [Quat.mul, Quat.mk.injEq]
  refine ⟨?_, ?_, ?_, ?_⟩
  · linear_combination (-s1 * s2) * ha
  all_goals ring

example : (⟨3 / 5, 0, 4 / 5⟩ : Vec3 ℝ).sqLength = 1 := by norm_num [Vec3.sqLength]

/-- An axis far from unit length is refused. -/
theorem C61_assertion (pi reps : ℝ) {u : AngleUnit} (axis : Vec3 ℝ) (ang : Angle u ℝ) (h : axis.sqLength * reps < |axis.sqLength - 1|) :
    quatFromAxisAngle pi reps axis ang = .throws .assertion := by
  unfold quatFromAxisAngle
  rw [if_neg]
  unfold EqualsRel
  rw [not_le]
  have h0 : 0 ≤ axis.x * axis.x + axis.y * axis.y + axis.z * axis.z := by
    nlinarith [mul_self_nonneg axis.x, mul_self_nonneg axis.y, mul_self_nonneg axis.z]
  rw [abs_of_nonneg h0]
  exact h

example : (⟨2, 0, 0⟩ : Vec3 ℝ).sqLength * (1 / 1000) < |(⟨2, 0, 0⟩ : Vec3 ℝ).sqLength - 1| := by
  norm_num [Vec3.sqLength]

/-- The three factors of an order of rotations, from the left. -/
def eulerFactors (eo : EulerOrder) (qx qy qz : Quat ℝ) : Quat ℝ × Quat ℝ × Quat ℝ :=
  match eo with
  | .xyz => (qx, qy, qz)
  | .xzy => (qx, qz, qy)
  | .yxz => (qy, qx, qz)
  | .yzx => (qy, qz, qx)
  | .zxy => (qz, qx, qy)
  | .zyx => (qz, qy, qx)

/-- The result is the product of the rotations about the three axes in the order named, is of unit length and acts by doing the
three one after the other, the last one named first. -/
theorem C61_euler (pi reps : ℝ) (hr : 0 ≤ reps) {u : AngleUnit} (x y z : Angle u ℝ) (eo : EulerOrder) :
    ∃ qx qy qz, quatFromAxisAngle pi reps Vec3.unitX x = .ok qx ∧ quatFromAxisAngle pi reps Vec3.unitY y = .ok qy ∧
      quatFromAxisAngle pi reps Vec3.unitZ z = .ok qz ∧ ∀ f, f = eulerFactors eo qx qy qz →
      quatFromEuler pi x y z eo = (f.1.mul f.2.1).mul f.2.2 ∧ (quatFromEuler pi x y z eo).sqLength = 1 ∧
      ∀ v, (quatFromEuler pi x y z eo).rot v = f.1.rot (f.2.1.rot (f.2.2.rot v)) := by
  have hx : (Vec3.unitX : Vec3 ℝ).sqLength = 1 := by norm_num [Vec3.sqLength, Vec3.unitX]
  have hy : (Vec3.unitY : Vec3 ℝ).sqLength = 1 := by norm_num [Vec3.sqLength, Vec3.unitY]
  have hz : (Vec3.unitZ : Vec3 ℝ).sqLength = 1 := by norm_num [Vec3.sqLength, Vec3.unitZ]
  obtain ⟨qx, ex, ux, _⟩ := C61_axis_angle pi reps hr Vec3.unitX x hx
  obtain ⟨qy, ey, uy, _⟩ := C61_axis_angle pi reps hr Vec3.unitY y hy
  obtain ⟨qz, ez, uz, _⟩ := C61_axis_angle pi reps hr Vec3.unitZ z hz
  refine ⟨qx, qy, qz, ex, ey, ez, ?_⟩
  have key : quatFromEuler pi x y z eo = (eulerFactors eo qx qy qz).1.mul
      ((eulerFactors eo qx qy qz).2.1.mul (eulerFactors eo qx qy qz).2.2) := by
    rw [quatFromAxisAngle_unit pi hr _ hx] at ex
    rw [quatFromAxisAngle_unit pi hr _ hy] at ey
    rw [quatFromAxisAngle_unit pi hr _ hz] at ez
    have ex := Res.ok.inj ex
    have ey := Res.ok.inj ey
    have ez := Res.ok.inj ez
    simp only [Vec3.unitX, Vec3.unitY, Vec3.unitZ, mul_one, mul_zero] at ex ey ez
    unfold quatFromEuler
    dsimp only
    rw [ex, ey, ez]
    cases eo <;> rfl
  have hu : (eulerFactors eo qx qy qz).1.sqLength = 1 ∧ (eulerFactors eo qx qy qz).2.1.sqLength = 1 ∧
      (eulerFactors eo qx qy qz).2.2.sqLength = 1 := by
    cases eo <;> simp only [eulerFactors, ux, uy, uz, and_self]
  intro f hf
  rw [← hf] at key hu
  obtain ⟨h1, h2, h3⟩ := hu
  have h23 : (f.2.1.mul f.2.2).sqLength = 1 := (C58_action f.2.1 f.2.2 h2 h3 Vec3.zero).2.2.2.2.2.2.2
  refine ⟨?_, ?_, ?_⟩
  · rw [key, (C58_monoid _ _ _).1]
  · rw [key]
    exact (C58_action f.1 _ h1 h23 Vec3.zero).2.2.2.2.2.2.2
  · intro v
    rw [key, rot_mul _ _ h1 h23, rot_mul _ _ h2 h3]

/-- Axis and angle of a unit quaternion give it back. -/
theorem C61_axis_angle_from_quat (pi eps reps : ℝ) (hr : 0 ≤ reps) (he : 0 ≤ eps) (q : Quat ℝ) (hq : q.sqLength = 1)
    (hl : eps < Real.sqrt (q.x * q.x + q.y * q.y + q.z * q.z)) :
    quatFromAxisAngle pi reps (axisAngleFromQuat eps q).1 (axisAngleFromQuat eps q).2 = .ok q ∧
    (axisAngleFromQuat eps q).1.sqLength = 1 ∧
    rotationVectorFromQuat eps q = (axisAngleFromQuat eps q).1.smul (axisAngleFromQuat eps q).2.value := by
  obtain ⟨w, x, y, z⟩ := q
  simp only [Quat.sqLength] at hq
  have hnn : 0 ≤ x * x + y * y + z * z := by nlinarith [mul_self_nonneg x, mul_self_nonneg y, mul_self_nonneg z]
  have hsq : Real.sqrt (x * x + y * y + z * z) * Real.sqrt (x * x + y * y + z * z) = x * x + y * y + z * z := Real.mul_self_sqrt hnn
  have hw1 : 1 - w ^ 2 = x * x + y * y + z * z := by linear_combination -hq
  unfold axisAngleFromQuat rotationVectorFromQuat
  dsimp only at hl ⊢
  rw [if_pos hl, if_pos hl]
  dsimp only
  have hpos : 0 < Real.sqrt (x * x + y * y + z * z) := lt_of_le_of_lt he hl
  have hsin : Real.sin (Real.arccos w) = Real.sqrt (x * x + y * y + z * z) := by rw [Real.sin_arccos, hw1]
  generalize Real.sqrt (x * x + y * y + z * z) = l at *
  have hlne := hpos.ne'
  have hunit : (⟨1 / l * x, 1 / l * y, 1 / l * z⟩ : Vec3 ℝ).sqLength = 1 := by
    simp only [Vec3.sqLength]
    field_simp
    linear_combination -hsq
  refine ⟨?_, hunit, ?_⟩
  · rw [quatFromAxisAngle_unit pi hr _ hunit]
    have hrad : (0.5 : ℝ) * (⟨2 * Real.arccos w⟩ : Angle .radians ℝ).radValue pi = Real.arccos w := by
      simp only [Angle.radValue, convertAngle]; ring
    have hb : -1 ≤ w ∧ w ≤ 1 := by constructor <;> nlinarith
    rw [hrad, hsin, Real.cos_arccos hb.1 hb.2]
    simp only [Res.ok.injEq, Quat.mk.injEq, true_and]
    refine ⟨?_, ?_, ?_⟩ <;> field_simp
  · simp only [Vec3.smul, Vec3.mk.injEq]
    refine ⟨?_, ?_, ?_⟩ <;> field_simp

example : (⟨3 / 5, 4 / 5, 0, 0⟩ : Quat ℝ).sqLength = 1 ∧ (1 / 1000 : ℝ) < Real.sqrt (4 / 5 * (4 / 5) + 0 * 0 + 0 * 0) := by
  refine ⟨by norm_num [Quat.sqLength], ?_⟩
  rw [Real.lt_sqrt (by norm_num)]; norm_num

/-- Below the threshold the rotation counts as none. -/
theorem C61_small (eps : ℝ) (q : Quat ℝ) (hl : Real.sqrt (q.x * q.x + q.y * q.y + q.z * q.z) ≤ eps) :
    (axisAngleFromQuat eps q).2.value = 0 ∧ (axisAngleFromQuat eps q).1 = ⟨1, 0, 0⟩ ∧ rotationVectorFromQuat eps q = ⟨0, 0, 0⟩ := by
  unfold axisAngleFromQuat rotationVectorFromQuat
  dsimp only
  rw [if_neg (not_lt.2 hl), if_neg (not_lt.2 hl)]
  exact ⟨rfl, rfl, rfl⟩

/-- Conversely a rotation about an axis by an angle between nothing and a full turn has that axis and angle. -/
theorem C61_axis_angle_back (pi eps reps : ℝ) (hr : 0 ≤ reps) (axis : Vec3 ℝ) (θ : ℝ) (h : axis.sqLength = 1)
    (h0 : 0 ≤ θ) (h1 : θ ≤ 2 * Real.pi) (hs : eps < Real.sin (θ / 2)) (he : 0 ≤ eps) :
    ∃ q, quatFromAxisAngle pi reps axis (⟨θ⟩ : Angle .radians ℝ) = .ok q ∧ axisAngleFromQuat eps q = (axis, ⟨θ⟩) := by
  obtain ⟨a, b, c⟩ := axis
  have ha : a * a + b * b + c * c = 1 := h
  rw [quatFromAxisAngle_unit pi hr _ h]
  refine ⟨_, rfl, ?_⟩
  have hrad : (0.5 : ℝ) * (⟨θ⟩ : Angle .radians ℝ).radValue pi = θ / 2 := by
    simp only [Angle.radValue, convertAngle]; ring
  unfold axisAngleFromQuat
  dsimp only
  rw [hrad]
  have hpos : 0 < Real.sin (θ / 2) := lt_of_le_of_lt he hs
  have hacos : Real.arccos (Real.cos (θ / 2)) = θ / 2 := Real.arccos_cos (by linarith) (by linarith)
  have hl : Real.sqrt (Real.sin (θ / 2) * a * (Real.sin (θ / 2) * a) + Real.sin (θ / 2) * b * (Real.sin (θ / 2) * b) +
      Real.sin (θ / 2) * c * (Real.sin (θ / 2) * c)) = Real.sin (θ / 2) := by
    rw [show Real.sin (θ / 2) * a * (Real.sin (θ / 2) * a) + Real.sin (θ / 2) * b * (Real.sin (θ / 2) * b) +
      Real.sin (θ / 2) * c * (Real.sin (θ / 2) * c) = Real.sin (θ / 2) ^ 2 by linear_combination Real.sin (θ / 2) ^ 2 * ha]
    exact Real.sqrt_sq hpos.le
  rw [hl, if_pos hs, hacos]
  simp only [Prod.mk.injEq, Vec3.mk.injEq, Angle.mk.injEq]
  have hne := hpos.ne'
  refine ⟨⟨?_, ?_, ?_⟩, ?_⟩
  · field_simp
  · field_simp
  · field_simp
  · ring

example : (0 : ℝ) ≤ Real.pi ∧ Real.pi ≤ 2 * Real.pi ∧ (1 / 1000 : ℝ) < Real.sin (Real.pi / 2) := by
  rw [Real.sin_pi_div_two]
  have := Real.pi_pos
  refine ⟨by linarith, by linarith, by norm_num⟩

/-! ## C62 -/

/-- Normalizing a vector longer than the threshold gives the unit vector in the same direction. -/
theorem normalized_spec (eps : ℝ) (he : 0 ≤ eps) (v : Vec3 ℝ) (h : eps < v.length) :
    (v.normalized eps).sqLength = 1 ∧ (v.normalized eps).smul v.length = v := by
  have hnn : 0 ≤ v.x * v.x + v.y * v.y + v.z * v.z := by
    nlinarith [mul_self_nonneg v.x, mul_self_nonneg v.y, mul_self_nonneg v.z]
  have hsq : v.length * v.length = v.x * v.x + v.y * v.y + v.z * v.z := Real.mul_self_sqrt hnn
  have hne : v.length ≠ 0 := (lt_of_le_of_lt he h).ne'
  unfold Vec3.normalized
  dsimp only
  rw [if_pos h]
  constructor
  · simp only [Vec3.sqLength]
    field_simp
    linear_combination -hsq
  · simp only [Vec3.smul]
    rw [Vec3.ext_iff']
    dsimp only
    refine ⟨?_, ?_, ?_⟩ <;> field_simp

/-- Lagrange's identity. -/
theorem cross_sqLength (s t : Vec3 ℝ) (hs : s.sqLength = 1) (ht : t.sqLength = 1) : (s.cross t).sqLength = 1 - s.dot t ^ 2 := by
  simp only [Vec3.sqLength, Vec3.dot, Vec3.cross] at *
  linear_combination (t.x * t.x + t.y * t.y + t.z * t.z) * hs + ht

theorem equalsRel_zero {reps v : ℝ} (hr : reps < 1) (hv : 0 ≤ v) : EqualsRel v 0 reps ↔ v = 0 := by
  unfold EqualsRel
  rw [sub_zero, abs_of_nonneg hv]
  constructor
  · intro h
    by_contra hne
    have : 0 < v := lt_of_le_of_ne hv (Ne.symm hne)
    nlinarith
  · intro h; rw [h, zero_mul]

/-- Sources and targets longer than the threshold, neither counted as the same nor opposite: the result is a unit quaternion that
maps the direction of the source to the direction of the target. -/
theorem C62_directions (eps reps : ℝ) (he : 0 ≤ eps) (hr1 : reps < 1) (source target : Vec3 ℝ)
    (h1 : eps < source.length) (h2 : eps < target.length)
    (hsame : ¬ EqualsRel ((source.normalized eps).dot (target.normalized eps)) 1 reps)
    (hopp : (source.normalized eps).cross (target.normalized eps) ≠ Vec3.zero) :
    (quatFromDirections eps reps source target).sqLength = 1 ∧
    (quatFromDirections eps reps source target).rot (source.normalized eps) = target.normalized eps := by
  obtain ⟨hs, _⟩ := normalized_spec eps he source h1
  obtain ⟨ht, _⟩ := normalized_spec eps he target h2
  unfold quatFromDirections
  dsimp only
  generalize source.normalized eps = s at *
  generalize target.normalized eps = t at *
  rw [if_neg hsame]
  have hcl := cross_sqLength s t hs ht
  have hnn : 0 ≤ (s.cross t).sqLength := by
    simp only [Vec3.sqLength]
    nlinarith [mul_self_nonneg (s.cross t).x, mul_self_nonneg (s.cross t).y, mul_self_nonneg (s.cross t).z]
  have hlen : (s.cross t).length = Real.sqrt (1 - s.dot t ^ 2) := by rw [← hcl]; rfl
  have hcpos : 0 < (s.cross t).length := by
    rw [Vec3.length, Real.sqrt_pos]
    refine lt_of_le_of_ne hnn fun h0 => hopp ?_
    have h0 := h0.symm
    have a1 : (s.cross t).x = 0 := by
      nlinarith [mul_self_nonneg (s.cross t).x, mul_self_nonneg (s.cross t).y, mul_self_nonneg (s.cross t).z]
    have a2 : (s.cross t).y = 0 := by
      nlinarith [mul_self_nonneg (s.cross t).x, mul_self_nonneg (s.cross t).y, mul_self_nonneg (s.cross t).z]
    have a3 : (s.cross t).z = 0 := by
      nlinarith [mul_self_nonneg (s.cross t).x, mul_self_nonneg (s.cross t).y, mul_self_nonneg (s.cross t).z]
    rw [Vec3.ext_iff']
    exact ⟨a1, a2, a3⟩
  rw [if_neg (fun h => hcpos.ne' ((equalsRel_zero hr1 hcpos.le).1 h))]
  have hd : -1 ≤ s.dot t ∧ s.dot t ≤ 1 := by constructor <;> nlinarith
  have hsin2 : Real.sin (Real.arccos (s.dot t)) = (s.cross t).length := by rw [Real.sin_arccos, hlen]
  have hcos2 : Real.cos (Real.arccos (s.dot t)) = s.dot t := Real.cos_arccos hd.1 hd.2
  obtain ⟨a, ha⟩ : ∃ a, Real.arccos (s.dot t) = 2 * a := ⟨Real.arccos (s.dot t) / 2, by ring⟩
  rw [ha] at hsin2 hcos2
  have hhalf : 2 * a * 0.5 = a := by ring
  rw [ha, hhalf]
  rw [Real.sin_two_mul] at hsin2
  rw [Real.cos_two_mul] at hcos2
  have hsc := Real.sin_sq_add_cos_sq a
  generalize Real.sin a = sa at *
  generalize Real.cos a = ca at *
  have hll : (s.cross t).length * (s.cross t).length = (s.cross t).sqLength := Real.mul_self_sqrt hnn
  generalize (s.cross t).length = l at *
  have hlne := hcpos.ne'
  -- sine of the half angle over the length of the cross product
  obtain ⟨k, hk⟩ : ∃ k, sa = k * l := ⟨sa / l, by field_simp⟩
  have hk2 : 2 * ca * k = 1 := by
    have : l * (2 * ca * k - 1) = 0 := by rw [hk] at hsin2; linear_combination hsin2
    rcases mul_eq_zero.1 this with h | h
    · exact absurd h hlne
    · linear_combination h
  have hcomp : ∀ c, c * (1 / l) * sa = c * k := by
    intro c; rw [hk]; field_simp
  have hk3 : k ^ 2 * (s.cross t).sqLength + ca ^ 2 = 1 := by
    rw [← hll]; rw [hk] at hsc; linear_combination hsc
  simp only [Vec3.sdiv, hcomp]
  obtain ⟨s1, s2, s3⟩ := s
  obtain ⟨t1, t2, t3⟩ := t
  simp only [Vec3.sqLength, Vec3.dot, Vec3.cross] at *
  constructor
  · simp only [Quat.sqLength]
    linear_combination hk3
  · have h2k : 2 * k ^ 2 * ((s2 * t3 - s3 * t2) * (s2 * t3 - s3 * t2) + (s3 * t1 - s1 * t3) * (s3 * t1 - s1 * t3) +
        (s1 * t2 - s2 * t1) * (s1 * t2 - s2 * t1)) = 1 - (s1 * t1 + s2 * t2 + s3 * t3) := by
      linear_combination 2 * hk3 - hcos2
    simp only [Quat.rot, Vec3.cross, Vec3.add, Vec3.smul, Vec3.mk.injEq]
    refine ⟨?_, ?_, ?_⟩
    · linear_combination (t1 * (s1 * s1 + s2 * s2 + s3 * s3) - s1 * (s1 * t1 + s2 * t2 + s3 * t3)) * hk2 + t1 * hs - s1 * h2k
    · linear_combination (t2 * (s1 * s1 + s2 * s2 + s3 * s3) - s2 * (s1 * t1 + s2 * t2 + s3 * t3)) * hk2 + t2 * hs - s2 * h2k
    · linear_combination (t3 * (s1 * s1 + s2 * s2 + s3 * s3) - s3 * (s1 * t1 + s2 * t2 + s3 * t3)) * hk2 + t3 * hs - s3 * h2k

theorem length_unit (v : Vec3 ℝ) (h : v.sqLength = 1) : v.length = 1 := by
  have : v.length = Real.sqrt v.sqLength := rfl
  rw [this, h, Real.sqrt_one]

theorem normalized_unit (eps : ℝ) (v : Vec3 ℝ) (h : v.sqLength = 1) : v.normalized eps = v := by
  unfold Vec3.normalized
  dsimp only
  rw [length_unit v h]
  split
  · obtain ⟨x, y, z⟩ := v
    simp
  · rfl

example : (1 / 1000 : ℝ) < (⟨3 / 5, 4 / 5, 0⟩ : Vec3 ℝ).length ∧
    ¬ EqualsRel ((⟨3 / 5, 4 / 5, 0⟩ : Vec3 ℝ).dot ⟨1, 0, 0⟩) 1 (1 / 1000) ∧ (⟨3 / 5, 4 / 5, 0⟩ : Vec3 ℝ).cross ⟨1, 0, 0⟩ ≠ Vec3.zero := by
  refine ⟨?_, ?_, ?_⟩
  · rw [length_unit _ (by norm_num [Vec3.sqLength])]; norm_num
  · unfold EqualsRel Vec3.dot
    norm_num [abs_le]
  · simp [Vec3.cross, Vec3.zero]

/-- Directions counted as the same give the identity; they are apart by at most the root of twice the tolerance. -/
theorem C62_same (eps reps : ℝ) (he : 0 ≤ eps) (source target : Vec3 ℝ) (h1 : eps < source.length) (h2 : eps < target.length)
    (hr : 0 ≤ reps) (hsame : EqualsRel ((source.normalized eps).dot (target.normalized eps)) 1 reps) :
    quatFromDirections eps reps source target = ⟨1, 0, 0, 0⟩ ∧
    (((quatFromDirections eps reps source target).rot (source.normalized eps)).sub (target.normalized eps)).sqLength ≤ 2 * reps := by
  obtain ⟨hs, _⟩ := normalized_spec eps he source h1
  obtain ⟨ht, _⟩ := normalized_spec eps he target h2
  have e : quatFromDirections eps reps source target = ⟨1, 0, 0, 0⟩ := by
    unfold quatFromDirections
    dsimp only
    rw [if_pos hsame]
    rfl
  refine ⟨e, ?_⟩
  rw [e]
  generalize source.normalized eps = s at *
  generalize target.normalized eps = t at *
  have hrot : Quat.rot ⟨1, 0, 0, 0⟩ s = s := (C58_action Quat.one Quat.one (by simp [Quat.one, Quat.sqLength]) (by simp [Quat.one, Quat.sqLength]) s).2.1
  rw [hrot]
  have hcl := cross_sqLength s t hs ht
  have hnn : 0 ≤ (s.cross t).sqLength := by
    simp only [Vec3.sqLength]
    nlinarith [mul_self_nonneg (s.cross t).x, mul_self_nonneg (s.cross t).y, mul_self_nonneg (s.cross t).z]
  have hd : |s.dot t| ≤ 1 := by
    rw [abs_le]; constructor <;> nlinarith
  have hdist : (s.sub t).sqLength = 2 * (1 - s.dot t) := by
    simp only [Vec3.sub, Vec3.sqLength, Vec3.dot] at *
    linear_combination hs + ht
  unfold EqualsRel at hsame
  have h3 : 1 - s.dot t ≤ |s.dot t - 1| := by rw [abs_sub_comm]; exact le_abs_self _
  have h4 : |s.dot t| * reps ≤ reps := by nlinarith
  rw [hdist]
  linarith

example : EqualsRel ((⟨3 / 5, 4 / 5, 0⟩ : Vec3 ℝ).dot ⟨3 / 5, 4 / 5, 0⟩) 1 0 := by
  unfold EqualsRel Vec3.dot; norm_num

/-- Opposite directions: half a turn about the x axis, which is right exactly for sources perpendicular to it. -/
theorem C62_opposite (eps reps : ℝ) (he : 0 ≤ eps) (hr : 0 ≤ reps) (hr1 : reps < 1) (source target : Vec3 ℝ) (h1 : eps < source.length)
    (h2 : eps < target.length) (hopp : target.normalized eps = (source.normalized eps).neg) :
    quatFromDirections eps reps source target = ⟨0, 1, 0, 0⟩ ∧
    ((quatFromDirections eps reps source target).rot (source.normalized eps) = target.normalized eps ↔ source.x = 0) := by
  obtain ⟨hs, hsm⟩ := normalized_spec eps he source h1
  have hx : source.x = 0 ↔ (source.normalized eps).x = 0 := by
    have hl : source.length ≠ 0 := (lt_of_le_of_lt he h1).ne'
    have : source.x = (source.normalized eps).x * source.length := by
      conv_lhs => rw [← hsm]
      rfl
    rw [this]
    simp [hl]
  have e : quatFromDirections eps reps source target = ⟨0, 1, 0, 0⟩ := by
    unfold quatFromDirections
    dsimp only
    rw [hopp]
    generalize source.normalized eps = s at *
    have hd : s.dot s.neg = -1 := by
      simp only [Vec3.sqLength, Vec3.dot, Vec3.neg] at *
      linear_combination -hs
    have hc : (s.cross s.neg).length = 0 := by
      simp only [Vec3.length, Vec3.cross, Vec3.neg]
      rw [← Real.sqrt_zero]
      congr 1
      ring
    rw [if_neg, if_pos]
    · rw [hc]
      exact (equalsRel_zero hr1 le_rfl).2 rfl
    · rw [hd]
      unfold EqualsRel
      rw [show (-1 : ℝ) - 1 = -2 by norm_num, abs_neg, abs_neg, abs_one, abs_of_pos (by norm_num)]
      linarith
  refine ⟨e, ?_⟩
  rw [e, hopp, hx]
  generalize source.normalized eps = s
  simp only [Quat.rot, Vec3.cross, Vec3.add, Vec3.smul, Vec3.neg, Vec3.mk.injEq]
  constructor
  · rintro ⟨h, _⟩
    linarith
  · intro h
    rw [h]
    refine ⟨?_, ?_, ?_⟩ <;> ring

/-- From the x axis to its opposite the result does not rotate at all. -/
theorem C62_opposite_refuted (eps reps : ℝ) (he : 0 ≤ eps) (he1 : eps < 1) (hr : 0 ≤ reps) (hr1 : reps < 1) :
    (quatFromDirections eps reps ⟨1, 0, 0⟩ ⟨-1, 0, 0⟩).rot ⟨1, 0, 0⟩ = ⟨1, 0, 0⟩ := by
  have u1 : (⟨1, 0, 0⟩ : Vec3 ℝ).sqLength = 1 := by norm_num [Vec3.sqLength]
  have u2 : (⟨-1, 0, 0⟩ : Vec3 ℝ).sqLength = 1 := by norm_num [Vec3.sqLength]
  have := (C62_opposite eps reps he hr hr1 ⟨1, 0, 0⟩ ⟨-1, 0, 0⟩ (by rw [length_unit _ u1]; exact he1) (by rw [length_unit _ u2]; exact he1)
    (by rw [normalized_unit _ _ u1, normalized_unit _ _ u2]; simp [Vec3.neg])).1
  rw [this]
  simp [Quat.rot, Vec3.cross, Vec3.add, Vec3.smul]

/-! ## C77 -/

theorem atan2_sin_cos {θ : ℝ} (h1 : -Real.pi < θ) (h2 : θ ≤ Real.pi) : atan2 (Real.sin θ) (Real.cos θ) = θ := by
  unfold atan2
  have e : (⟨Real.cos θ, Real.sin θ⟩ : ℂ) = Complex.cos θ + Complex.sin θ * Complex.I := by
    apply Complex.ext <;> simp [Complex.cos_ofReal_re, Complex.sin_ofReal_re]
  rw [e]
  exact Complex.arg_cos_add_sin_mul_I ⟨h1, h2⟩

theorem atan2_zero_nonneg {x : ℝ} (h : 0 ≤ x) : atan2 0 x = 0 := Complex.arg_ofReal_of_nonneg h

theorem atan2_zero_neg {x : ℝ} (h : x < 0) : atan2 0 x = Real.pi := Complex.arg_ofReal_of_neg h

theorem half_angle (θ : ℝ) : 2 * Real.sin (0.5 * θ) * Real.cos (0.5 * θ) = Real.sin θ ∧
    1 - 2 * Real.sin (0.5 * θ) * Real.sin (0.5 * θ) = Real.cos θ := by
  obtain ⟨t, rfl⟩ : ∃ t, θ = 2 * t := ⟨θ / 2, by ring⟩
  have : (0.5 : ℝ) * (2 * t) = t := by ring
  rw [this, Real.sin_two_mul, Real.cos_two_mul]
  refine ⟨rfl, ?_⟩
  linear_combination -2 * Real.sin_sq_add_cos_sq t

/-- The three components read from a rotation about one axis. -/
theorem euler_single (pi : ℝ) (eo : EulerOrder) (θ : ℝ) :
    eulerFromQuat (quatFromEuler pi (⟨θ⟩ : Angle .radians ℝ) ⟨0⟩ ⟨0⟩ eo) =
      ⟨atan2 (Real.sin θ) (Real.cos θ), atan2 0 (Real.cos θ), atan2 0 1⟩ ∧
    eulerFromQuat (quatFromEuler pi (⟨0⟩ : Angle .radians ℝ) ⟨θ⟩ ⟨0⟩ eo) =
      ⟨atan2 0 1, atan2 (Real.sin θ) (Real.cos θ), atan2 0 (Real.cos θ)⟩ ∧
    eulerFromQuat (quatFromEuler pi (⟨0⟩ : Angle .radians ℝ) ⟨0⟩ ⟨θ⟩ eo) =
      ⟨atan2 0 (Real.cos θ), atan2 0 1, atan2 (Real.sin θ) (Real.cos θ)⟩ := by
  obtain ⟨h1, h2⟩ := half_angle θ
  have r : ∀ v : ℝ, (⟨v⟩ : Angle .radians ℝ).radValue pi = v := fun v => rfl
  refine ⟨?_, ?_, ?_⟩
  all_goals
    cases eo <;>
    · simp only [eulerFromQuat, quatFromEuler, pitch, yaw, roll, r, Quat.mul, mul_zero, zero_mul, Real.cos_zero, Real.sin_zero, mul_one,
        one_mul, add_zero, zero_add, sub_zero, h1, h2]

/-- A rotation about one axis by at most a right angle is read back, in every order. -/
theorem C77_single_axis_partial (pi : ℝ) (eo : EulerOrder) (θ : ℝ) (h1 : -(Real.pi / 2) ≤ θ) (h2 : θ ≤ Real.pi / 2) :
    eulerFromQuat (quatFromEuler pi (⟨θ⟩ : Angle .radians ℝ) ⟨0⟩ ⟨0⟩ eo) = ⟨θ, 0, 0⟩ ∧
    eulerFromQuat (quatFromEuler pi (⟨0⟩ : Angle .radians ℝ) ⟨θ⟩ ⟨0⟩ eo) = ⟨0, θ, 0⟩ ∧
    eulerFromQuat (quatFromEuler pi (⟨0⟩ : Angle .radians ℝ) ⟨0⟩ ⟨θ⟩ eo) = ⟨0, 0, θ⟩ := by
  have hpi := Real.pi_pos
  have hc : 0 ≤ Real.cos θ := Real.cos_nonneg_of_neg_pi_div_two_le_of_le h1 h2
  obtain ⟨a, b, c⟩ := euler_single pi eo θ
  rw [a, b, c, atan2_sin_cos (by linarith) (by linarith), atan2_zero_nonneg hc, atan2_zero_nonneg (by norm_num)]
  exact ⟨rfl, rfl, rfl⟩

example : -(Real.pi / 2) ≤ (1 : ℝ) ∧ (1 : ℝ) ≤ Real.pi / 2 := by
  have := Real.two_le_pi
  constructor <;> linarith

/-- Beyond a right angle another component is read as half a turn. -/
theorem C77_beyond_right_angle (pi : ℝ) (eo : EulerOrder) (θ : ℝ) (h1 : Real.pi / 2 < θ) (h2 : θ ≤ Real.pi) :
    eulerFromQuat (quatFromEuler pi (⟨θ⟩ : Angle .radians ℝ) ⟨0⟩ ⟨0⟩ eo) = ⟨θ, Real.pi, 0⟩ := by
  have hpi := Real.pi_pos
  have hc : Real.cos θ < 0 := Real.cos_neg_of_pi_div_two_lt_of_lt h1 (by linarith)
  rw [(euler_single pi eo θ).1, atan2_sin_cos (by linarith) h2, atan2_zero_neg hc, atan2_zero_nonneg (by norm_num)]

example : Real.pi / 2 < Real.pi ∧ Real.pi ≤ Real.pi := ⟨by have := Real.pi_pos; linarith, le_rfl⟩

/-- The angle of the rotation between the other two. -/
def eulerMiddle (eo : EulerOrder) (x y z : ℝ) : ℝ :=
  match eo with
  | .xyz => y
  | .xzy => z
  | .yxz => x
  | .yzx => z
  | .zxy => x
  | .zyx => y

/-- For no order are the three angles read back in general, even if they are far from the singular position. -/
theorem C77_refuted (pi : ℝ) (eo : EulerOrder) : ∃ x y z : ℝ, (∀ a ∈ [x, y, z], 0 ≤ a ∧ a ≤ Real.pi / 2) ∧ eulerMiddle eo x y z = 0 ∧
    eulerFromQuat (quatFromEuler pi (⟨x⟩ : Angle .radians ℝ) ⟨y⟩ ⟨z⟩ eo) ≠ ⟨x, y, z⟩ := by
  have r : ∀ v : ℝ, (⟨v⟩ : Angle .radians ℝ).radValue pi = v := fun v => rfl
  have hh : (0.5 : ℝ) * (Real.pi / 2) = Real.pi / 4 := by ring
  have hs : Real.sqrt 2 / 2 * (Real.sqrt 2 / 2) = 1 / 2 := by
    have : Real.sqrt 2 * Real.sqrt 2 = 2 := Real.mul_self_sqrt (by norm_num)
    linear_combination this / 4
  have hpi := Real.pi_pos
  have hp2 : 0 < Real.pi / 2 := by linarith
  have a1 : atan2 0 0 = 0 := atan2_zero_nonneg le_rfl
  have a2 : atan2 1 0 = Real.pi / 2 := by
    have := atan2_sin_cos (θ := Real.pi / 2) (by linarith) (by linarith)
    rwa [Real.sin_pi_div_two, Real.cos_pi_div_two] at this
  have n1 : (1 : ℝ) / 2 + 1 / 2 = 1 := by norm_num
  cases eo
  case xyz =>
    refine ⟨Real.pi / 2, 0, Real.pi / 2, by simp [hp2.le], rfl, fun h => ?_⟩
    have h := congrArg Vec3.x h
    simp only [eulerFromQuat, quatFromEuler, pitch, r, hh, Quat.mul, Real.cos_pi_div_four, Real.sin_pi_div_four, mul_zero, zero_mul,
      Real.cos_zero, Real.sin_zero, mul_one, one_mul, add_zero, zero_add, sub_zero, zero_sub, hs] at h
    norm_num [a1] at h
    linarith
  case xzy =>
    refine ⟨Real.pi / 2, Real.pi / 2, 0, by simp [hp2.le], rfl, fun h => ?_⟩
    have h := congrArg Vec3.z h
    simp only [eulerFromQuat, quatFromEuler, roll, r, hh, Quat.mul, Real.cos_pi_div_four, Real.sin_pi_div_four, mul_zero, zero_mul,
      Real.cos_zero, Real.sin_zero, mul_one, one_mul, add_zero, zero_add, sub_zero, zero_sub, hs] at h
    norm_num [a2] at h
  case yxz =>
    refine ⟨0, Real.pi / 2, Real.pi / 2, by simp [hp2.le], rfl, fun h => ?_⟩
    have h := congrArg Vec3.x h
    simp only [eulerFromQuat, quatFromEuler, pitch, r, hh, Quat.mul, Real.cos_pi_div_four, Real.sin_pi_div_four, mul_zero, zero_mul,
      Real.cos_zero, Real.sin_zero, mul_one, one_mul, add_zero, zero_add, sub_zero, zero_sub, hs] at h
    norm_num [a2] at h
  case yzx =>
    refine ⟨Real.pi / 2, Real.pi / 2, 0, by simp [hp2.le], rfl, fun h => ?_⟩
    have h := congrArg Vec3.x h
    simp only [eulerFromQuat, quatFromEuler, pitch, r, hh, Quat.mul, Real.cos_pi_div_four, Real.sin_pi_div_four, mul_zero, zero_mul,
      Real.cos_zero, Real.sin_zero, mul_one, one_mul, add_zero, zero_add, sub_zero, zero_sub, hs] at h
    norm_num [a1] at h
    linarith
  case zxy =>
    refine ⟨0, Real.pi / 2, Real.pi / 2, by simp [hp2.le], rfl, fun h => ?_⟩
    have h := congrArg Vec3.z h
    simp only [eulerFromQuat, quatFromEuler, roll, r, hh, Quat.mul, Real.cos_pi_div_four, Real.sin_pi_div_four, mul_zero, zero_mul,
      Real.cos_zero, Real.sin_zero, mul_one, one_mul, add_zero, zero_add, sub_zero, zero_sub, hs] at h
    norm_num [a1] at h
    linarith
  case zyx =>
    refine ⟨Real.pi / 2, 0, Real.pi / 2, by simp [hp2.le], rfl, fun h => ?_⟩
    have h := congrArg Vec3.y h
    simp only [eulerFromQuat, quatFromEuler, yaw, r, hh, Quat.mul, Real.cos_pi_div_four, Real.sin_pi_div_four, mul_zero, zero_mul,
      Real.cos_zero, Real.sin_zero, mul_one, one_mul, add_zero, zero_add, sub_zero, zero_sub, hs] at h
    norm_num [a2] at h

end Flut
