import Mathlib.Analysis.Quaternion
import Verif.Spec.Float
import Verif.Model.FloatRotation

/-! # Hamilton's quaternions, for the floating-point quaternions and vectors -/

namespace Flut

namespace Spec

open Quaternion

/-- A floating-point number stands for a real number. -/
def StandsReal (f : Fmt) (x : Flt) (r : ℝ) : Prop := ∃ a : ℚ, Stands f x a ∧ r = a

/-- A floating-point quaternion stands for one of Hamilton's quaternions. -/
def StandsQuat (f : Fmt) (q : Quat Flt) (Q : ℍ[ℝ]) : Prop :=
  StandsReal f q.w Q.re ∧ StandsReal f q.x Q.imI ∧ StandsReal f q.y Q.imJ ∧ StandsReal f q.z Q.imK

/-- A floating-point vector stands for a vector: a quaternion without real part, whose norm is the length of the vector. -/
def StandsVec (f : Fmt) (v : Vec3 Flt) (V : ℍ[ℝ]) : Prop :=
  V.re = 0 ∧ StandsReal f v.x V.imI ∧ StandsReal f v.y V.imJ ∧ StandsReal f v.z V.imK

end Spec

end Flut
