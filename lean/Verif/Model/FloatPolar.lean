import Verif.Model.FloatEuler

/-! # Vectors from polar coordinates in floating-point arithmetic -/

namespace Flut

namespace FloatMath

/-- `vec3_from_polar` (flut/math/vec3.hpp:92-93), with `sin` and `cos` of an angle (flut/math/angle.hpp:115-118). -/
def polarVec (f : Fmt) (L : Libm) (radius : Flt) (u : AngleUnit) (incl azim : Flt) : Vec3 Flt :=
  ⟨f.mul (f.mul radius (L.sin (radValue f u incl))) (L.sin (radValue f u azim)), f.mul radius (L.cos (radValue f u incl)),
   f.mul (f.mul radius (L.sin (radValue f u incl))) (L.cos (radValue f u azim))⟩

end FloatMath

end Flut
