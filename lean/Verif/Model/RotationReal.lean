import Verif.Model.Rotation
import Verif.Basic
import Mathlib.Analysis.SpecialFunctions.Trigonometric.Inverse
import Mathlib.Analysis.SpecialFunctions.Complex.Arg
import Mathlib.Analysis.Real.Sqrt

/-!
# The functions of `flut/math/vec3.hpp` and `flut/math/quat.hpp` with roots and angles

Floating point numbers are modelled as real numbers. `none` stands for a result that is not a number: the root of a negative
number or a division by zero. `eps` is `constants<T>::epsilon()`, `reps` is `constants<T>::relaxed_epsilon()` and `pi` is
`constants<T>::pi()`, the decimal in the source, which differs from the real π.
-/

namespace Flut

open Classical in
/-- `sqrt`. -/
noncomputable def sqrtNum (v : ℝ) : Option ℝ := if 0 ≤ v then some (Real.sqrt v) else none

open Classical in
/-- Division. -/
noncomputable def divNum (a b : ℝ) : Option ℝ := if b = 0 then none else some (a / b)

/-- `equals` (flut/math/math.hpp:42) as a proposition. -/
def EqualsRel (v1 v2 e : ℝ) : Prop := |v1 - v2| ≤ |v1| * e

/-- `length` (flut/math/vec3.hpp:54-55); the radicand is never negative. -/
noncomputable def Vec3.length (v : Vec3 ℝ) : ℝ := Real.sqrt (v.x * v.x + v.y * v.y + v.z * v.z)

/-- `distance` (flut/math/vec3.hpp:66-67). -/
noncomputable def Vec3.distance (a b : Vec3 ℝ) : ℝ :=
  Real.sqrt ((a.x - b.x) * (a.x - b.x) + (a.y - b.y) * (a.y - b.y) + (a.z - b.z) * (a.z - b.z))

open Classical in
/-- `normalize`, `normalized` (flut/math/vec3.hpp:76-81). -/
noncomputable def Vec3.normalized (eps : ℝ) (v : Vec3 ℝ) : Vec3 ℝ :=
  let l := v.length
  if l > eps then
    let s := 1 / l
    ⟨v.x * s, v.y * s, v.z * s⟩
  else v

/-- The member function `normalized` (flut/math/vec3_type.hpp:44), without a threshold. -/
noncomputable def Vec3.normalizedMember (v : Vec3 ℝ) : Option (Vec3 ℝ) :=
  (divNum 1 v.length).map fun s => ⟨v.x * s, v.y * s, v.z * s⟩

/-- `is_normalized` (flut/math/vec3.hpp:62-63). -/
def Vec3.IsNormalized (reps : ℝ) (v : Vec3 ℝ) : Prop := EqualsRel (v.x * v.x + v.y * v.y + v.z * v.z) 1 reps

/-- `length` (flut/math/quat.hpp:44-45). -/
noncomputable def Quat.length (q : Quat ℝ) : ℝ := Real.sqrt (q.w * q.w + q.x * q.x + q.y * q.y + q.z * q.z)

open Classical in
/-- `normalize`, `normalized` (flut/math/quat.hpp:52-67). -/
noncomputable def Quat.normalized (eps : ℝ) (q : Quat ℝ) : Quat ℝ :=
  let l := Real.sqrt (q.x * q.x + q.y * q.y + q.z * q.z + q.w * q.w)
  if l > eps then
    let s := 1 / l
    ⟨q.w * s, q.x * s, q.y * s, q.z * s⟩
  else q

/-- `vec3_from_polar` (flut/math/vec3.hpp:92-93). -/
noncomputable def vec3FromPolar (pi : ℝ) {u : AngleUnit} (radius : ℝ) (incl azim : Angle u ℝ) : Vec3 ℝ :=
  ⟨radius * Real.sin (incl.radValue pi) * Real.sin (azim.radValue pi), radius * Real.cos (incl.radValue pi),
   radius * Real.sin (incl.radValue pi) * Real.cos (azim.radValue pi)⟩

open Classical in
/-- `quat_from_axis_angle` (flut/math/quat.hpp:70-76). -/
noncomputable def quatFromAxisAngle (pi reps : ℝ) {u : AngleUnit} (axis : Vec3 ℝ) (ang : Angle u ℝ) : Res (Quat ℝ) :=
  if EqualsRel (axis.x * axis.x + axis.y * axis.y + axis.z * axis.z) 1 reps then
    let ha := 0.5 * ang.radValue pi
    let hs := Real.sin ha
    .ok ⟨Real.cos ha, hs * axis.x, hs * axis.y, hs * axis.z⟩
  else .throws .assertion

/-- `euler_order` (flut/math/quat.hpp:16). -/
inductive EulerOrder where
  | xyz | xzy | yxz | yzx | zxy | zyx
deriving DecidableEq

/-- `quat_from_euler` (flut/math/quat.hpp:79-96, and 99-102). -/
noncomputable def quatFromEuler (pi : ℝ) {u : AngleUnit} (x y z : Angle u ℝ) (eo : EulerOrder) : Quat ℝ :=
  let hxa := 0.5 * x.radValue pi
  let hya := 0.5 * y.radValue pi
  let hza := 0.5 * z.radValue pi
  let qx : Quat ℝ := ⟨Real.cos hxa, Real.sin hxa, 0, 0⟩
  let qy : Quat ℝ := ⟨Real.cos hya, 0, Real.sin hya, 0⟩
  let qz : Quat ℝ := ⟨Real.cos hza, 0, 0, Real.sin hza⟩
  match eo with
  | .xyz => qx.mul (qy.mul qz)
  | .xzy => qx.mul (qz.mul qy)
  | .yxz => qy.mul (qx.mul qz)
  | .yzx => qy.mul (qz.mul qx)
  | .zxy => qz.mul (qx.mul qy)
  | .zyx => qz.mul (qy.mul qx)

/-- `atan2`: the argument of `x + i y`. -/
noncomputable def atan2 (y x : ℝ) : ℝ := Complex.arg ⟨x, y⟩

/-- `pitch` (flut/math/quat.hpp:111-116). -/
noncomputable def pitch (q : Quat ℝ) : ℝ :=
  let tx := 2 * q.x; let tz := 2 * q.z
  let twx := tx * q.w; let txx := tx * q.x; let tyz := tz * q.y; let tzz := tz * q.z
  atan2 (tyz + twx) (1 - (txx + tzz))

/-- `yaw` (flut/math/quat.hpp:118-123). -/
noncomputable def yaw (q : Quat ℝ) : ℝ :=
  let tx := 2 * q.x; let ty := 2 * q.y; let tz := 2 * q.z
  let twy := ty * q.w; let txx := tx * q.x; let txz := tz * q.x; let tyy := ty * q.y
  atan2 (txz + twy) (1 - (txx + tyy))

/-- `roll` (flut/math/quat.hpp:125-130). -/
noncomputable def roll (q : Quat ℝ) : ℝ :=
  let ty := 2 * q.y; let tz := 2 * q.z
  let twz := tz * q.w; let txy := ty * q.x; let tyy := ty * q.y; let tzz := tz * q.z
  atan2 (txy + twz) (1 - (tyy + tzz))

/-- `euler_from_quat` (flut/math/quat.hpp:105-109), in radians. -/
noncomputable def eulerFromQuat (q : Quat ℝ) : Vec3 ℝ := ⟨pitch q, yaw q, roll q⟩

open Classical in
/-- `quat_from_directions` (flut/math/quat.hpp:133-152). -/
noncomputable def quatFromDirections (eps reps : ℝ) (source target : Vec3 ℝ) : Quat ℝ :=
  let s := source.normalized eps
  let t := target.normalized eps
  let c := s.cross t
  let d := s.dot t
  if EqualsRel d 1 reps then Quat.one
  else
    let clen := c.length
    if EqualsRel clen 0 reps then ⟨0, 1, 0, 0⟩
    else
      let c := c.sdiv clen
      let a := Real.arccos d * 0.5
      let sa := Real.sin a
      ⟨Real.cos a, c.x * sa, c.y * sa, c.z * sa⟩

open Classical in
/-- `rotation_vector_from_quat` (flut/math/quat.hpp:159-169). -/
noncomputable def rotationVectorFromQuat (eps : ℝ) (q : Quat ℝ) : Vec3 ℝ :=
  let l := Real.sqrt (q.x * q.x + q.y * q.y + q.z * q.z)
  if l > eps then
    let f := 2 * Real.arccos q.w / l
    ⟨f * q.x, f * q.y, f * q.z⟩
  else Vec3.zero

open Classical in
/-- `axis_angle_from_quat` (flut/math/quat.hpp:172-182). The axis is converted to `float` there (line 179); exact here. -/
noncomputable def axisAngleFromQuat (eps : ℝ) (q : Quat ℝ) : Vec3 ℝ × Angle .radians ℝ :=
  let l := Real.sqrt (q.x * q.x + q.y * q.y + q.z * q.z)
  if l > eps then
    let s := 1 / l
    (⟨s * q.x, s * q.y, s * q.z⟩, ⟨2 * Real.arccos q.w⟩)
  else (Vec3.unitX, ⟨0⟩)

/-- Assigns `q_xyz[i]` (flut/math/quat.hpp:209-214). -/
def setXyz (q : Quat ℝ) (i : Nat) (v : ℝ) : Quat ℝ :=
  match i with
  | 0 => { q with x := v }
  | 1 => { q with y := v }
  | _ => { q with z := v }

open Classical in
/-- `quat_from_axes` (flut/math/quat.hpp:185-218). -/
noncomputable def quatFromAxes (x y z : Vec3 ℝ) : Option (Quat ℝ) :=
  let m := mat33FromAxes x y z
  let t := m 0 0 + m 1 1 + m 2 2
  if t > 0 then
    (sqrtNum (t + 1)).bind fun root =>
    let w := 0.5 * root
    (divNum 0.5 root).bind fun root =>
    some ⟨w, (m 2 1 - m 1 2) * root, (m 0 2 - m 2 0) * root, (m 1 0 - m 0 1) * root⟩
  else
    let i := if m 1 1 > m 0 0 then 1 else 0
    let i := if m 2 2 > m i i then 2 else i
    let j := (i + 1) % 3
    let k := (j + 1) % 3
    (sqrtNum (m i i - m j j - m k k + 1)).bind fun root =>
    let q : Quat ℝ := setXyz Quat.one i (0.5 * root)
    (divNum 0.5 root).bind fun root =>
    let q := { q with w := (m k j - m j k) * root }
    let q := setXyz q j ((m j i + m i j) * root)
    some (setXyz q k ((m k i + m i k) * root))

end Flut
