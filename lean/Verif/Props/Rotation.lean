import Verif.Model.RotationReal
import Mathlib.Tactic.Ring
import Mathlib.Tactic.LinearCombination
import Mathlib.Tactic.Linarith
import Mathlib.Tactic.FieldSimp
import Mathlib.Tactic.NormNum
import Mathlib.Data.Rat.Floor

/-!
# Rotations (C58–C62) and four-dimensional vectors (C73)
-/

namespace Flut

section Algebra

variable {K : Type} [Field K]

theorem Vec3.ext_iff' (a b : Vec3 K) : a = b ↔ a.x = b.x ∧ a.y = b.y ∧ a.z = b.z := by
  cases a; cases b; simp

theorem Quat.ext_iff' (a b : Quat K) : a = b ↔ a.w = b.w ∧ a.x = b.x ∧ a.y = b.y ∧ a.z = b.z := by
  cases a; cases b; simp

theorem Trans.ext_iff' (a b : Trans K) : a = b ↔ a.p = b.p ∧ a.q = b.q := by
  cases a; cases b; simp

/-! ## C58 -/

/-- Quaternions are a monoid and their norm is multiplicative. -/
theorem C58_monoid (a b c : Quat K) : (a.mul b).mul c = a.mul (b.mul c) ∧ Quat.one.mul a = a ∧ a.mul Quat.one = a ∧
    (a.mul b).sqLength = a.sqLength * b.sqLength ∧ (a.mul b).conj = b.conj.mul a.conj ∧ a.conj.conj = a := by
  refine ⟨?_, ?_, ?_, ?_, ?_, ?_⟩
  · rw [Quat.ext_iff']; simp only [Quat.mul]; refine ⟨?_, ?_, ?_, ?_⟩ <;> ring
  · rw [Quat.ext_iff']; simp only [Quat.mul, Quat.one]; refine ⟨?_, ?_, ?_, ?_⟩ <;> ring
  · rw [Quat.ext_iff']; simp only [Quat.mul, Quat.one]; refine ⟨?_, ?_, ?_, ?_⟩ <;> ring
  · simp only [Quat.mul, Quat.sqLength]; ring
  · rw [Quat.ext_iff']; simp only [Quat.mul, Quat.conj]; refine ⟨?_, ?_, ?_, ?_⟩ <;> ring
  · simp [Quat.conj]

example : ((⟨1, 2, 3, 4⟩ : Quat ℚ).mul ⟨5, 6, 7, 8⟩) = ⟨-60, 12, 30, 24⟩ := by decide +kernel

/-- A unit quaternion acts as a linear map that keeps dot products, lengths and cross products: a rotation. -/
theorem C58_rotation (q : Quat K) (hq : q.sqLength = 1) (u v : Vec3 K) (s : K) :
    (q.rot u).dot (q.rot v) = u.dot v ∧ (q.rot v).sqLength = v.sqLength ∧
    (q.rot u).cross (q.rot v) = q.rot (u.cross v) ∧
    q.rot (u.add v) = (q.rot u).add (q.rot v) ∧ q.rot (v.smul s) = (q.rot v).smul s := by
  obtain ⟨w, x, y, z⟩ := q
  simp only [Quat.sqLength] at hq
  have hw : w * w = 1 - x * x - y * y - z * z := by linear_combination hq
  have hdot : ∀ u v : Vec3 K, (Quat.rot ⟨w, x, y, z⟩ u).dot (Quat.rot ⟨w, x, y, z⟩ v) = u.dot v := by
    rintro ⟨a, b, c⟩ ⟨d, e, f⟩
    simp only [Quat.rot, Vec3.dot, Vec3.cross, Vec3.add, Vec3.smul]
    ring_nf
    have h2 : w ^ 2 = 1 - x * x - y * y - z * z := by rw [pow_two]; exact hw
    simp only [h2]
    ring
  obtain ⟨a, b, c⟩ := u
  obtain ⟨d, e, f⟩ := v
  have h2 : w ^ 2 = 1 - x * x - y * y - z * z := by rw [pow_two]; exact hw
  refine ⟨hdot _ _, hdot _ _, ?_, ?_, ?_⟩
  · rw [Vec3.ext_iff']
    simp only [Quat.rot, Vec3.cross, Vec3.add, Vec3.smul]
    refine ⟨?_, ?_, ?_⟩
    · ring_nf; simp only [h2]; ring
    · ring_nf; simp only [h2]; ring
    · ring_nf; simp only [h2]; ring
  · rw [Vec3.ext_iff']
    simp only [Quat.rot, Vec3.cross, Vec3.add, Vec3.smul]
    refine ⟨?_, ?_, ?_⟩ <;> ring
  · rw [Vec3.ext_iff']
    simp only [Quat.rot, Vec3.cross, Vec3.add, Vec3.smul]
    refine ⟨?_, ?_, ?_⟩ <;> ring

example : (⟨3 / 5, 4 / 5, 0, 0⟩ : Quat ℚ).sqLength = 1 ∧ (⟨3 / 5, 4 / 5, 0, 0⟩ : Quat ℚ).rot ⟨1, 2, 3⟩ = ⟨1, -86 / 25, 27 / 25⟩ := by
  decide +kernel

theorem rot_mul (p q : Quat K) (hp : p.sqLength = 1) (hq : q.sqLength = 1) (v : Vec3 K) : (p.mul q).rot v = p.rot (q.rot v) := by
  obtain ⟨w, x, y, z⟩ := p
  obtain ⟨w', x', y', z'⟩ := q
  obtain ⟨a, b, c⟩ := v
  simp only [Quat.sqLength] at hp hq
  have h2 : w ^ 2 = 1 - x * x - y * y - z * z := by linear_combination hp
  have h2' : w' ^ 2 = 1 - x' * x' - y' * y' - z' * z' := by linear_combination hq
  rw [Vec3.ext_iff']
  simp only [Quat.rot, Quat.mul, Vec3.cross, Vec3.add, Vec3.smul]
  refine ⟨?_, ?_, ?_⟩
  · ring_nf; simp only [h2, h2']; ring
  · ring_nf; simp only [h2, h2']; ring
  · ring_nf; simp only [h2, h2']; ring

/-- The product acts as the composition, the identity does nothing and the conjugate undoes the rotation. -/
theorem C58_action (p q : Quat K) (hp : p.sqLength = 1) (hq : q.sqLength = 1) (v : Vec3 K) :
    (p.mul q).rot v = p.rot (q.rot v) ∧ Quat.one.rot v = v ∧ q.conj.rot (q.rot v) = v ∧ q.rot (q.conj.rot v) = v ∧
    q.conj.mul q = Quat.one ∧ q.mul q.conj = Quat.one ∧ q.conj.sqLength = 1 ∧ (p.mul q).sqLength = 1 := by
  have hc : q.conj.sqLength = 1 := by
    rw [← hq]; simp only [Quat.conj, Quat.sqLength]; ring
  have h1 : q.conj.mul q = Quat.one := by
    simp only [Quat.sqLength] at hq
    rw [Quat.ext_iff']; simp only [Quat.mul, Quat.conj, Quat.one]
    refine ⟨?_, ?_, ?_, ?_⟩
    · linear_combination hq
    all_goals ring
  have h2 : q.mul q.conj = Quat.one := by
    simp only [Quat.sqLength] at hq
    rw [Quat.ext_iff']; simp only [Quat.mul, Quat.conj, Quat.one]
    refine ⟨?_, ?_, ?_, ?_⟩
    · linear_combination hq
    all_goals ring
  have h3 : ∀ v : Vec3 K, Quat.one.rot v = v := by
    intro v
    rw [Vec3.ext_iff']; simp only [Quat.rot, Quat.one, Vec3.cross, Vec3.add, Vec3.smul]
    refine ⟨?_, ?_, ?_⟩ <;> ring
  refine ⟨rot_mul p q hp hq v, h3 v, ?_, ?_, h1, h2, hc, ?_⟩
  · rw [← rot_mul _ _ hc hq, h1, h3]
  · rw [← rot_mul _ _ hq hc, h2, h3]
  · rw [(C58_monoid p q q).2.2.2.1, hp, hq, one_mul]

example : (⟨3 / 5, 4 / 5, 0, 0⟩ : Quat ℚ).sqLength = 1 ∧ (⟨0, 0, 3 / 5, 4 / 5⟩ : Quat ℚ).sqLength = 1 := by decide +kernel

/-- Without the length being one the product does not act as the composition. -/
theorem C58_unit_needed : ¬ ∀ (p q : Quat ℚ) (v : Vec3 ℚ), (p.mul q).rot v = p.rot (q.rot v) := by
  intro h
  exact absurd (h ⟨0, 2, 0, 0⟩ ⟨0, 0, 1, 0⟩ ⟨1, 0, 0⟩) (by decide +kernel)

/-- The rotation between two quaternions leads from the one to the other when multiplied from the right. -/
theorem C58_between (p q : Quat K) (hp : p.sqLength = 1) : p.mul (Quat.between p q) = q := by
  unfold Quat.between
  rw [← (C58_monoid p p.conj q).1, (C58_action p p hp hp Vec3.zero).2.2.2.2.2.1, (C58_monoid q q q).2.1]

example : (⟨3 / 5, 4 / 5, 0, 0⟩ : Quat ℚ).sqLength = 1 := by decide +kernel

/-! ## C59 -/

theorem Vec3.add_assoc' (a b c : Vec3 K) : (a.add b).add c = a.add (b.add c) := by
  simp only [Vec3.add, Vec3.mk.injEq]; refine ⟨?_, ?_, ?_⟩ <;> ring

theorem rot_add (q : Quat K) (u v : Vec3 K) : q.rot (u.add v) = (q.rot u).add (q.rot v) := by
  rw [Vec3.ext_iff']
  simp only [Quat.rot, Vec3.cross, Vec3.add, Vec3.smul]
  refine ⟨?_, ?_, ?_⟩ <;> ring

theorem rot_neg (q : Quat K) (v : Vec3 K) : q.rot v.neg = (q.rot v).neg := by
  rw [Vec3.ext_iff']
  simp only [Quat.rot, Vec3.cross, Vec3.add, Vec3.smul, Vec3.neg]
  refine ⟨?_, ?_, ?_⟩ <;> ring

theorem add_neg_self (v : Vec3 K) : v.add v.neg = Vec3.zero := by
  simp [Vec3.add, Vec3.neg, Vec3.zero]

theorem neg_add_self (v : Vec3 K) : v.neg.add v = Vec3.zero := by
  simp [Vec3.add, Vec3.neg, Vec3.zero]

theorem zero_add' (v : Vec3 K) : Vec3.zero.add v = v := by simp [Vec3.add, Vec3.zero]

theorem add_zero' (v : Vec3 K) : v.add Vec3.zero = v := by simp [Vec3.add, Vec3.zero]

theorem rot_zero (q : Quat K) : q.rot Vec3.zero = Vec3.zero := by
  simp [Quat.rot, Vec3.cross, Vec3.add, Vec3.smul, Vec3.zero]

theorem sub_eq_add (u v : Vec3 K) : u.sub v = u.add v.neg := by
  simp only [Vec3.sub, Vec3.add, Vec3.neg, sub_eq_add_neg]

/-- Composition acts as composition, is associative and has the identity as neutral element. -/
theorem C59_compose (s t u : Trans K) (hs : s.q.sqLength = 1) (ht : t.q.sqLength = 1) (v : Vec3 K) (o : Quat K) :
    (s.mul t).applyV v = s.applyV (t.applyV v) ∧ (s.mul t).applyQ o = s.applyQ (t.applyQ o) ∧
    (s.mul t).mul u = s.mul (t.mul u) ∧ Trans.one.mul s = s ∧ s.mul Trans.one = s ∧ Trans.one.applyV v = v := by
  have hone : ∀ v : Vec3 K, Quat.one.rot v = v := fun v => (C58_action s.q s.q hs hs v).2.1
  have hcomp : ∀ v, (s.mul t).applyV v = s.applyV (t.applyV v) := by
    intro v
    simp only [Trans.mul, Trans.applyV, rot_mul _ _ hs ht, rot_add, Vec3.add_assoc']
  refine ⟨hcomp v, ?_, ?_, ?_, ?_, ?_⟩
  · simp only [Trans.mul, Trans.applyQ, (C58_monoid s.q t.q o).1]
  · rw [Trans.ext_iff']
    exact ⟨hcomp u.p, (C58_monoid s.q t.q u.q).1⟩
  · rw [Trans.ext_iff']
    simp only [Trans.mul, Trans.one, hone, zero_add', (C58_monoid s.q s.q s.q).2.1, and_self]
  · rw [Trans.ext_iff']
    simp only [Trans.mul, Trans.one, rot_zero, add_zero', (C58_monoid s.q s.q s.q).2.2.1, and_self]
  · simp only [Trans.applyV, Trans.one, hone, zero_add']

example : ((⟨⟨1, 2, 3⟩, ⟨3 / 5, 4 / 5, 0, 0⟩⟩ : Trans ℚ).mul ⟨⟨1, 0, 0⟩, ⟨0, 0, 1, 0⟩⟩).applyV ⟨0, 0, 1⟩ = ⟨2, 74 / 25, 82 / 25⟩ := by
  decide +kernel

/-- The inverse is a two-sided inverse, and `inv_transform` is what the inverse does. -/
theorem C59_inverse (t u : Trans K) (ht : t.q.sqLength = 1) (v : Vec3 K) (o : Quat K) :
    t.inverse.mul t = Trans.one ∧ t.mul t.inverse = Trans.one ∧
    t.invApplyV v = t.inverse.applyV v ∧ t.invApplyQ o = t.inverse.applyQ o ∧ t.invMul u = t.inverse.mul u := by
  obtain ⟨_, _, h1, h2, h3, h4, _⟩ := C58_action t.q t.q ht ht t.p
  have hsub : ∀ v : Vec3 K, t.q.conj.rot (v.sub t.p) = (t.q.conj.rot t.p.neg).add (t.q.conj.rot v) := by
    intro v
    rw [sub_eq_add, rot_add]
    simp only [Vec3.add, Vec3.mk.injEq]
    exact ⟨add_comm _ _, add_comm _ _, add_comm _ _⟩
  refine ⟨?_, ?_, hsub v, rfl, ?_⟩
  · rw [Trans.ext_iff']
    refine ⟨?_, h3⟩
    simp only [Trans.mul, Trans.inverse, Trans.one]
    rw [rot_neg, neg_add_self]
  · rw [Trans.ext_iff']
    refine ⟨?_, h4⟩
    simp only [Trans.mul, Trans.inverse, Trans.one]
    rw [rot_neg, rot_neg, h2, add_neg_self]
  · rw [Trans.ext_iff']
    exact ⟨hsub u.p, rfl⟩

/-- Transforming and transforming back gives what was there, for points, rotations and transforms, in both orders. -/
theorem C59_undo (t u : Trans K) (ht : t.q.sqLength = 1) (hu : u.q.sqLength = 1) (v : Vec3 K) (o : Quat K) :
    t.invApplyV (t.applyV v) = v ∧ t.applyV (t.invApplyV v) = v ∧ t.invApplyQ (t.applyQ o) = o ∧ t.applyQ (t.invApplyQ o) = o ∧
    t.invMul (t.mul u) = u ∧ t.mul (t.invMul u) = u := by
  have hi : t.inverse.q.sqLength = 1 := (C58_action t.q t.q ht ht v).2.2.2.2.2.2.1
  obtain ⟨h1, h2, _⟩ := C59_inverse t u ht v o
  have hv : ∀ v, t.invApplyV v = t.inverse.applyV v := fun v => (C59_inverse t u ht v o).2.2.1
  have ho : ∀ o, t.invApplyQ o = t.inverse.applyQ o := fun o => (C59_inverse t u ht v o).2.2.2.1
  have hm : ∀ u, t.invMul u = t.inverse.mul u := fun u => (C59_inverse t u ht v o).2.2.2.2
  have c1 := fun (v : Vec3 K) (o : Quat K) => C59_compose t.inverse t u hi ht v o
  have c2 := fun (v : Vec3 K) (o : Quat K) => C59_compose t t.inverse u ht hi v o
  refine ⟨?_, ?_, ?_, ?_, ?_, ?_⟩
  · rw [hv, ← (c1 v o).1, h1, (c1 v o).2.2.2.2.2]
  · rw [hv, ← (c2 v o).1, h2, (c1 v o).2.2.2.2.2]
  · rw [ho, ← (c1 v o).2.1, h1]
    exact (C58_monoid o o o).2.1
  · rw [ho, ← (c2 v o).2.1, h2]
    exact (C58_monoid o o o).2.1
  · rw [hm, ← (c1 v o).2.2.1, h1, (C59_compose u u u hu hu v o).2.2.2.1]
  · rw [hm, ← (c2 v o).2.2.1, h2, (C59_compose u u u hu hu v o).2.2.2.1]

example : (⟨⟨1, 2, 3⟩, ⟨3 / 5, 4 / 5, 0, 0⟩⟩ : Trans ℚ).invApplyV ((⟨⟨1, 2, 3⟩, ⟨3 / 5, 4 / 5, 0, 0⟩⟩ : Trans ℚ).applyV ⟨4, 5, 6⟩) = ⟨4, 5, 6⟩ := by
  decide +kernel

/-! ## C73 -/

/-- Addition is componentwise; the others are on the first three components and leave the fourth as it was. -/
theorem C73_vec4_partial (a b : Vec4 K) (s : K) :
    a.add b = ⟨a.x + b.x, a.y + b.y, a.z + b.z, a.w + b.w⟩ ∧
    (a.subAssign b = ⟨a.x - b.x, a.y - b.y, a.z - b.z, a.w - b.w⟩ ↔ b.w = 0) ∧
    (a.smul s = ⟨s * a.x, s * a.y, s * a.z, s * a.w⟩ ↔ a.w = 0 ∨ s = 1) ∧
    (s ≠ 0 → (a.sdiv s = ⟨a.x / s, a.y / s, a.z / s, a.w / s⟩ ↔ a.w = 0 ∨ s = 1)) := by
  refine ⟨rfl, ?_, ?_, ?_⟩
  · simp only [Vec4.subAssign, Vec4.mk.injEq, true_and]
    constructor
    · intro h; linear_combination h
    · intro h; rw [h, sub_zero]
  · simp only [Vec4.smul, Vec4.mk.injEq, mul_comm s, true_and]
    constructor
    · intro h
      have : a.w * (s - 1) = 0 := by linear_combination -h
      rcases mul_eq_zero.1 this with h | h
      · exact Or.inl h
      · exact Or.inr (by linear_combination h)
    · rintro (h | h) <;> simp [h]
  · intro hs
    simp only [Vec4.sdiv, Vec4.mk.injEq, mul_one_div, true_and]
    constructor
    · intro h
      have h' : a.w * s = a.w := by
        rw [eq_div_iff hs] at h
        exact h
      have : a.w * (s - 1) = 0 := by linear_combination h'
      rcases mul_eq_zero.1 this with h | h
      · exact Or.inl h
      · exact Or.inr (by linear_combination h)
    · rintro (h | h) <;> simp [h]

example : (⟨1, 2, 3, 4⟩ : Vec4 ℚ).add ⟨5, 6, 7, 8⟩ = ⟨6, 8, 10, 12⟩ := by decide +kernel

/-- The fourth component is neither negated, scaled, divided nor subtracted from. -/
theorem C73_refuted : (⟨0, 0, 0, 1⟩ : Vec4 ℚ).neg = ⟨0, 0, 0, 1⟩ ∧ (⟨0, 0, 0, 1⟩ : Vec4 ℚ).smul 2 = ⟨0, 0, 0, 1⟩ ∧
    (⟨0, 0, 0, 1⟩ : Vec4 ℚ).sdiv 2 = ⟨0, 0, 0, 1⟩ ∧ (⟨0, 0, 0, 1⟩ : Vec4 ℚ).subAssign ⟨0, 0, 0, 1⟩ = ⟨0, 0, 0, 1⟩ := by
  decide +kernel

end Algebra

end Flut
