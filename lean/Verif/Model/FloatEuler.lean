import Verif.Model.FloatVec
import Verif.Model.FloatRotation
import Verif.Model.RotationReal

/-! # Quaternions from angles, and the axis and angle of a quaternion, in floating-point arithmetic -/

namespace Flut

/-- The functions `sin`, `cos` and `acos` of the C++ library for one of the formats. The library is not part of flut and IEEE 754 does not
say what they give; what is required of them is in `Spec/FloatEuler.lean`. -/
structure Libm where
  sin : Flt → Flt
  cos : Flt → Flt
  acos : Flt → Flt

namespace FloatMath

variable (f : Fmt) (L : Libm)

/-- `angle_::rad_value` (flut/math/angle.hpp:14-21,47). -/
def radValue : AngleUnit → Flt → Flt
  | .degrees, x => degToRad f x
  | .radians, x => x

/-- `quat_from_axis_angle` (flut/math/quat.hpp:70-76). -/
def axisAngleQuat (axis : Vec3 Flt) (u : AngleUnit) (ang : Flt) : Res (Quat Flt) :=
  if isNormalized f axis then
    let ha := f.mul (.fin false (1 / 2)) (radValue f u ang)
    let hs := L.sin ha
    .ok ⟨L.cos ha, f.mul hs axis.x, f.mul hs axis.y, f.mul hs axis.z⟩
  else .throws .assertion

/-- The switch of `quat_from_euler` (flut/math/quat.hpp:86-95). -/
def eulerProduct (qx qy qz : Quat Flt) : EulerOrder → Quat Flt
  | .xyz => quatMul f qx (quatMul f qy qz)
  | .xzy => quatMul f qx (quatMul f qz qy)
  | .yxz => quatMul f qy (quatMul f qx qz)
  | .yzx => quatMul f qy (quatMul f qz qx)
  | .zxy => quatMul f qz (quatMul f qx qy)
  | .zyx => quatMul f qz (quatMul f qy qx)

/-- `quat_from_euler` (flut/math/quat.hpp:79-96, and 99-102). -/
def eulerQuat (u : AngleUnit) (x y z : Flt) (eo : EulerOrder) : Quat Flt :=
  let hxa := f.mul (.fin false (1 / 2)) (radValue f u x)
  let hya := f.mul (.fin false (1 / 2)) (radValue f u y)
  let hza := f.mul (.fin false (1 / 2)) (radValue f u z)
  let qx : Quat Flt := ⟨L.cos hxa, L.sin hxa, .fin false 0, .fin false 0⟩
  let qy : Quat Flt := ⟨L.cos hya, .fin false 0, L.sin hya, .fin false 0⟩
  let qz : Quat Flt := ⟨L.cos hza, .fin false 0, .fin false 0, L.sin hza⟩
  eulerProduct f qx qy qz eo

/-- Conversion to `float`: the arguments of the constructor of `vec3f` (flut/math/vec3_type.hpp:16). -/
def toFloat : Flt → Flt
  | .fin s m => Fmt.single.result s (if s then -m else m)
  | x => x

/-- `axis_angle_from_quat` (flut/math/quat.hpp:172-182). The axis is made as a `vec3f`, for `double` as well (line 179), and converted to
`vec3_<T>`, which is exact. -/
def quatAxisAngle (q : Quat Flt) : Vec3 Flt × Flt :=
  let l := f.sqrt (f.add (f.add (f.mul q.x q.x) (f.mul q.y q.y)) (f.mul q.z q.z))
  if (epsilon f).lt l then
    let s := f.div (.fin false 1) l
    (⟨toFloat (f.mul s q.x), toFloat (f.mul s q.y), toFloat (f.mul s q.z)⟩, f.mul (.fin false 2) (L.acos q.w))
  else (⟨.fin false 1, .fin false 0, .fin false 0⟩, .fin false 0)

/-- `rotation_vector_from_quat` (flut/math/quat.hpp:159-169). -/
def quatRotationVector (q : Quat Flt) : Vec3 Flt :=
  let l := f.sqrt (f.add (f.add (f.mul q.x q.x) (f.mul q.y q.y)) (f.mul q.z q.z))
  if (epsilon f).lt l then
    let r := f.div (f.mul (.fin false 2) (L.acos q.w)) l
    ⟨f.mul r q.x, f.mul r q.y, f.mul r q.z⟩
  else ⟨.fin false 0, .fin false 0, .fin false 0⟩

end FloatMath

end Flut
