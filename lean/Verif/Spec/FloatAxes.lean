import Verif.Spec.FloatRotation

/-! # Right-handed frames, as Hamilton's quaternions -/

namespace Flut.Spec

open Quaternion

/-- Three vectors that multiply like `i`, `j` and `k`: they have length one, are at right angles and turn to the right. -/
structure RightHanded (X Y Z : ℍ[ℝ]) : Prop where
  vec : X.re = 0 ∧ Y.re = 0 ∧ Z.re = 0
  unit : ‖X‖ = 1 ∧ ‖Y‖ = 1
  right : X * Y = Z

/-- The quaternions `i`, `j` and `k`: the axes of the coordinates. -/
def axisI : ℍ[ℝ] := ⟨0, 1, 0, 0⟩
def axisJ : ℍ[ℝ] := ⟨0, 0, 1, 0⟩
def axisK : ℍ[ℝ] := ⟨0, 0, 0, 1⟩

/-- `P` is the rotation that takes the unit vectors `i`, `j` and `k` to `X`, `Y` and `Z`. -/
def Turns (P X Y Z : ℍ[ℝ]) : Prop :=
  ‖P‖ = 1 ∧ P * axisI * P⁻¹ = X ∧ P * axisJ * P⁻¹ = Y ∧ P * axisK * P⁻¹ = Z

end Flut.Spec
