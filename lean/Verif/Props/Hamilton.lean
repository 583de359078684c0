import Mathlib.Algebra.Quaternion
import Verif.Model.Rotation

/-! # Property theorems: the quaternions are Hamilton's (C58)

`ℍ[K]` are the quaternions of Mathlib. -/

namespace Flut

open Quaternion

variable {K : Type} [Field K]

/-- The quaternion with the same components. -/
def Quat.hamilton (q : Quat K) : ℍ[K] := ⟨q.w, q.x, q.y, q.z⟩

/-- The quaternion of a vector. -/
def Vec3.hamilton (v : Vec3 K) : ℍ[K] := ⟨0, v.x, v.y, v.z⟩

@[simp] theorem Quat.hamilton_re (q : Quat K) : q.hamilton.re = q.w := rfl
@[simp] theorem Quat.hamilton_imI (q : Quat K) : q.hamilton.imI = q.x := rfl
@[simp] theorem Quat.hamilton_imJ (q : Quat K) : q.hamilton.imJ = q.y := rfl
@[simp] theorem Quat.hamilton_imK (q : Quat K) : q.hamilton.imK = q.z := rfl
@[simp] theorem Vec3.hamilton_re (v : Vec3 K) : v.hamilton.re = 0 := rfl
@[simp] theorem Vec3.hamilton_imI (v : Vec3 K) : v.hamilton.imI = v.x := rfl
@[simp] theorem Vec3.hamilton_imJ (v : Vec3 K) : v.hamilton.imJ = v.y := rfl
@[simp] theorem Vec3.hamilton_imK (v : Vec3 K) : v.hamilton.imK = v.z := rfl

/-- Products, conjugates, lengths, the identity and the multiplication of a vector are those of Hamilton's quaternions. The last holds for
quaternions of length one only: otherwise a multiple of the vector is added. -/
theorem C58_hamilton (p q : Quat K) (v : Vec3 K) : (p.mul q).hamilton = p.hamilton * q.hamilton ∧ q.conj.hamilton = star q.hamilton ∧
    q.sqLength = normSq q.hamilton ∧ (Quat.one : Quat K).hamilton = 1 ∧ (∀ r : Quat K, q.hamilton = r.hamilton → q = r) ∧
    (q.rot v).hamilton = q.hamilton * v.hamilton * star q.hamilton + (1 - q.sqLength) • v.hamilton := by
  refine ⟨?_, ?_, ?_, rfl, ?_, ?_⟩
  · ext <;> simp [Quat.mul] <;> ring
  · ext <;> simp [Quat.conj]
  · rw [normSq_def']; simp only [Quat.sqLength, Quat.hamilton_re, Quat.hamilton_imI, Quat.hamilton_imJ, Quat.hamilton_imK]; ring
  · intro r h
    have := congrArg (fun x : ℍ[K] => (x.re, x.imI, x.imJ, x.imK)) h
    cases q; cases r
    simpa [Quat.hamilton] using this
  · ext <;> simp [Quat.rot, Vec3.cross, Vec3.smul, Vec3.add, Quat.sqLength] <;> ring

example : (⟨1, 2, 3, 4⟩ : Quat ℚ).hamilton * (⟨5, 6, 7, 8⟩ : Quat ℚ).hamilton = (⟨-60, 12, 30, 24⟩ : Quat ℚ).hamilton := by
  ext <;> norm_num

end Flut
