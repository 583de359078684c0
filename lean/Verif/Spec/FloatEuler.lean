import Verif.Spec.FloatAxes
import Verif.Model.FloatEuler
import Mathlib.Analysis.SpecialFunctions.Trigonometric.Inverse

/-! # Angles and rotations about an axis -/

namespace Flut.Spec

open Quaternion

/-- What is required of the library: for every finite argument the results are finite and within `k` units of the last place of 1 from
the real functions, and `acos` of a number outside its domain is not a number. -/
structure Accurate (f : Fmt) (k : ℝ) (L : Libm) : Prop where
  sin : ∀ x a, StandsReal f x a → ∃ s, StandsReal f (L.sin x) s ∧ |s - Real.sin a| ≤ k * (1 / 2 ^ f.prec)
  cos : ∀ x a, StandsReal f x a → ∃ c, StandsReal f (L.cos x) c ∧ |c - Real.cos a| ≤ k * (1 / 2 ^ f.prec)
  acos : ∀ x a, StandsReal f x a → |a| ≤ 1 → ∃ t, StandsReal f (L.acos x) t ∧ |t - Real.arccos a| ≤ k * (1 / 2 ^ f.prec)
  domain : ∀ x a, StandsReal f x a → 1 < |a| → L.acos x = .nan false

/-- The angle in radians. -/
noncomputable def exactAngle : AngleUnit → ℝ → ℝ
  | .degrees, a => a * (Real.pi / 180)
  | .radians, a => a

/-- `P` is the rotation about the unit vector `A` by the angle `θ`: it leaves `A` as it is, and turns every vector `V` at a right angle to
`A` in the plane of `V` and of the vector product of `A` and `V`, which is `A * V`. -/
structure RotatesBy (P A : ℍ[ℝ]) (θ : ℝ) : Prop where
  unit : ‖P‖ = 1
  axis : P * A * P⁻¹ = A
  turn : ∀ V : ℍ[ℝ], V.re = 0 → (A * V).re = 0 → P * V * P⁻¹ = Real.cos θ • V + Real.sin θ • (A * V)

/-- The product of three rotations: the one named last is done first. -/
noncomputable def turnsInOrder (X Y Z : ℍ[ℝ]) : EulerOrder → ℍ[ℝ]
  | .xyz => X * Y * Z
  | .xzy => X * Z * Y
  | .yxz => Y * X * Z
  | .yzx => Y * Z * X
  | .zxy => Z * X * Y
  | .zyx => Z * Y * X

end Flut.Spec
