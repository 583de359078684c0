import Verif.Spec.FloatEuler
import Verif.Model.FloatDirections

/-! # Turning one direction into another -/

namespace Flut.Spec

open Quaternion

/-- The direction of a vector. -/
noncomputable def direction (V : ℍ[ℝ]) : ℍ[ℝ] := ‖V‖⁻¹ • V

/-- The vector product of the directions of two vectors: its length is the sine of the angle between them. -/
noncomputable def normalTo (V W : ℍ[ℝ]) : ℍ[ℝ] := (direction V * direction W).im

/-- The angle between two vectors. The real part of the product of two directions is the opposite of their inner product. -/
noncomputable def angleBetween (V W : ℍ[ℝ]) : ℝ := Real.arccos (-(direction V * direction W).re)

/-- What `quat_from_directions` is for, with much room for errors: for vectors of moderate length the result is a quaternion that turns the
direction of the first vector into one that is less than `1` away from the direction of the second one; a right angle is `1.41` away. -/
def TurnsDirections (L : Libm) : Prop :=
  ∀ v w V W, StandsVec .double v V → StandsVec .double w W → 1 / 2 ≤ ‖V‖ → ‖V‖ ≤ 10000 → 1 / 2 ≤ ‖W‖ → ‖W‖ ≤ 10000 →
    ∃ Q, StandsQuat .double (FloatMath.directionsQuat .double L v w) Q ∧ Q ≠ 0 ∧ ‖Q * direction V * Q⁻¹ - direction W‖ < 1

end Flut.Spec
