import Verif.Model.FloatRotation

/-! # Transforms in floating-point arithmetic -/

namespace Flut

namespace FloatMath

variable (f : Fmt)

/-- `vec3_ - vec3_` (flut/math/vec3.hpp:19-20). -/
def vecSub (v1 v2 : Vec3 Flt) : Vec3 Flt := ⟨f.sub v1.x v2.x, f.sub v1.y v2.y, f.sub v1.z v2.z⟩

/-- `-vec3_` (flut/math/vec3.hpp:26-27). -/
def vecNeg (v : Vec3 Flt) : Vec3 Flt := ⟨v.x.neg, v.y.neg, v.z.neg⟩

/-- `operator*`, `transform` of a vector (flut/math/transform.hpp:31-32). -/
def transVec (t : Trans Flt) (v : Vec3 Flt) : Vec3 Flt := vecAdd f t.p (rotate f t.q v)

/-- `inv_transform` of a vector (flut/math/transform.hpp:33); the minus sign applies to the quaternion. -/
def transInvVec (t : Trans Flt) (v : Vec3 Flt) : Vec3 Flt := rotate f (quatConj t.q) (vecSub f v t.p)

/-- `operator*`, `transform` of a transform (flut/math/transform.hpp:27,39). -/
def transMul (t u : Trans Flt) : Trans Flt := ⟨vecAdd f t.p (rotate f t.q u.p), quatMul f t.q u.q⟩

/-- `inv_transform` of a transform (flut/math/transform.hpp:40). -/
def transInvMul (t u : Trans Flt) : Trans Flt := ⟨rotate f (quatConj t.q) (vecSub f u.p t.p), quatMul f (quatConj t.q) u.q⟩

/-- `operator-`, `inverse` (flut/math/transform.hpp:28-29). -/
def transInverse (t : Trans Flt) : Trans Flt := ⟨rotate f (quatConj t.q) (vecNeg t.p), quatConj t.q⟩

end FloatMath

end Flut
