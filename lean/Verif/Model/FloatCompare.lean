import Verif.Model.FloatVec

/-!
# Comparing vectors and angles of floating-point numbers
-/

namespace Flut

namespace FloatMath

/-- `==` of vectors (flut/math/vec3.hpp:70-71). -/
def vecEq (v1 v2 : Vec3 Flt) : Bool := v1.x.eq v2.x && v1.y.eq v2.y && v1.z.eq v2.z

/-- `!=` of vectors (flut/math/vec3.hpp:72-73). -/
def vecNe (v1 v2 : Vec3 Flt) : Bool := !vecEq v1 v2

/-- The comparisons of angles (flut/math/angle.hpp:63-68), by their values. -/
structure Compared where
  gt : Bool
  lt : Bool
  ge : Bool
  le : Bool
  eq : Bool
  ne : Bool
deriving DecidableEq

/-- All comparisons of two angles with the same unit (flut/math/angle.hpp:63-68). -/
def compareAngles (a b : Flt) : Compared := ⟨b.lt a, a.lt b, b.le a, a.le b, a.eq b, !a.eq b⟩

end FloatMath

end Flut
