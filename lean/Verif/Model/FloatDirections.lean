import Verif.Model.FloatEuler

/-! # The rotation from one direction to another, in floating-point arithmetic -/

namespace Flut

namespace FloatMath

variable (f : Fmt) (L : Libm)

/-- The end of `quat_from_directions` (flut/math/quat.hpp:147-151), for the cross product `c` of length `clen` and the dot product `d`. -/
def directionsTurn (c : Vec3 Flt) (clen d : Flt) : Quat Flt :=
  let c := divide f c clen
  let a := f.mul (L.acos d) (.fin false (1 / 2))
  let sa := L.sin a
  ⟨L.cos a, f.mul c.x sa, f.mul c.y sa, f.mul c.z sa⟩

/-- `quat_from_directions` (flut/math/quat.hpp:133-152). -/
def directionsQuat (source target : Vec3 Flt) : Quat Flt :=
  let s := normalize f source
  let t := normalize f target
  let c := crossProduct f s t
  let d := dotProduct f s t
  if equals f d (.fin false 1) (relaxedEpsilon f) then quatIdentity
  else
    let clen := length f c
    if equals f clen (.fin false 0) (relaxedEpsilon f) then ⟨.fin false 0, .fin false 1, .fin false 0, .fin false 0⟩
    else directionsTurn f L c clen d

end FloatMath

end Flut
