import Verif.Model.FloatVec

/-! # Quaternion products and rotations in floating-point arithmetic -/

namespace Flut

namespace FloatMath

variable (f : Fmt)

/-- `quat_ * quat_` (flut/math/quat.hpp:19-26), from left to right. -/
def quatMul (q1 q2 : Quat Flt) : Quat Flt :=
  ⟨f.sub (f.sub (f.sub (f.mul q1.w q2.w) (f.mul q1.x q2.x)) (f.mul q1.y q2.y)) (f.mul q1.z q2.z),
   f.sub (f.add (f.add (f.mul q1.w q2.x) (f.mul q1.x q2.w)) (f.mul q1.y q2.z)) (f.mul q1.z q2.y),
   f.sub (f.add (f.add (f.mul q1.w q2.y) (f.mul q1.y q2.w)) (f.mul q1.z q2.x)) (f.mul q1.x q2.z),
   f.sub (f.add (f.add (f.mul q1.w q2.z) (f.mul q1.z q2.w)) (f.mul q1.x q2.y)) (f.mul q1.y q2.x)⟩

/-- `vec3_ + vec3_` (flut/math/vec3.hpp:11-12). -/
def vecAdd (v1 v2 : Vec3 Flt) : Vec3 Flt := ⟨f.add v1.x v2.x, f.add v1.y v2.y, f.add v1.z v2.z⟩

/-- `quat_ * vec3_` (flut/math/quat.hpp:29-37). -/
def rotate (q : Quat Flt) (v : Vec3 Flt) : Vec3 Flt :=
  let qv : Vec3 Flt := ⟨q.x, q.y, q.z⟩
  let uv := crossProduct f qv v
  let uuv := crossProduct f qv uv
  let uv := scale f uv (f.mul (.fin false 2) q.w)
  let uuv := scale f uuv (.fin false 2)
  vecAdd f (vecAdd f v uv) uuv

/-- `-q`, the conjugate (flut/math/quat.hpp:40-41). -/
def quatConj (q : Quat Flt) : Quat Flt := ⟨q.w, q.x.neg, q.y.neg, q.z.neg⟩

/-- The quaternion of the default constructor and `identity` (flut/math/quat_type.hpp:14,30). -/
def quatIdentity : Quat Flt := ⟨.fin false 1, .fin false 0, .fin false 0, .fin false 0⟩

end FloatMath

end Flut
