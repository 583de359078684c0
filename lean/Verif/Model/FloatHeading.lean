import Verif.Model.FloatEuler

/-! # Pitch, yaw and roll of a quaternion in floating-point arithmetic -/

namespace Flut

namespace FloatMath

variable (f : Fmt) (atan2 : Flt → Flt → Flt)

/-- `pitch` (flut/math/quat.hpp:111-116). `atan2` is the function of the C++ library for the format; for `float` it may compute in `double`
and convert the result. -/
def quatPitch (q : Quat Flt) : Flt :=
  let tx := f.mul (.fin false 2) q.x; let tz := f.mul (.fin false 2) q.z
  let twx := f.mul tx q.w; let txx := f.mul tx q.x; let tyz := f.mul tz q.y; let tzz := f.mul tz q.z
  atan2 (f.add tyz twx) (f.sub (.fin false 1) (f.add txx tzz))

/-- `yaw` (flut/math/quat.hpp:118-123). -/
def quatYaw (q : Quat Flt) : Flt :=
  let tx := f.mul (.fin false 2) q.x; let ty := f.mul (.fin false 2) q.y; let tz := f.mul (.fin false 2) q.z
  let twy := f.mul ty q.w; let txx := f.mul tx q.x; let txz := f.mul tz q.x; let tyy := f.mul ty q.y
  atan2 (f.add txz twy) (f.sub (.fin false 1) (f.add txx tyy))

/-- `roll` (flut/math/quat.hpp:125-130). -/
def quatRoll (q : Quat Flt) : Flt :=
  let ty := f.mul (.fin false 2) q.y; let tz := f.mul (.fin false 2) q.z
  let twz := f.mul tz q.w; let txy := f.mul ty q.x; let tyy := f.mul ty q.y; let tzz := f.mul tz q.z
  atan2 (f.add txy twz) (f.sub (.fin false 1) (f.add tyy tzz))

/-- `euler_from_quat` (flut/math/quat.hpp:105-109), in radians. -/
def quatEuler (q : Quat Flt) : Vec3 Flt := ⟨quatPitch f atan2 q, quatYaw f atan2 q, quatRoll f atan2 q⟩

end FloatMath

end Flut
