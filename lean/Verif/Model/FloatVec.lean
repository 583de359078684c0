import Verif.Model.FloatMath
import Verif.Model.MathTypes
import Verif.Basic
import Mathlib.Data.Nat.Sqrt

/-!
# `flut/math/vec3.hpp`, `flut/math/vec3_type.hpp` and lengths in `flut/math/quat.hpp` in floating-point arithmetic

`T` is `float` or `double`. (Other files model the same functions in exact arithmetic.)
-/

namespace Flut

/-- The nearest integer to the square root, and the even one of two that are equally near: the root rounded down is `n`, and
`n * n + n + 1 / 4` is the square of `n + 1 / 2`. -/
def rootEven (x : ℚ) : Nat :=
  let n := Nat.sqrt ⌊x⌋₊
  if x < n * n + n + 1 / 4 then n else if n * n + n + 1 / 4 < x then n + 1 else if n % 2 = 0 then n else n + 1

namespace Fmt

variable (f : Fmt)

/-- The exponent of the last bit of numbers of the size of the square root of `q`. -/
def rootExp (q : ℚ) : Int := max f.emin (Int.log 2 q / 2 - (f.prec - 1))

/-- The square root, rounded to the format. -/
def rndRoot (q : ℚ) : ℚ := rootEven (q / 4 ^ f.rootExp q) * 2 ^ f.rootExp q

/-- `sqrt`, which IEEE 754 requires to be correctly rounded. Simplification: for `float` the function is taken to be the one for `float`. -/
def sqrt : Flt → Flt
  | .fin s m => if m = 0 then .fin s 0 else if s then .nan false else .fin false (f.rndRoot m)
  | .inf s => if s then .nan false else .inf false
  | .nan _ => .nan false

end Fmt

namespace Flt

/-- `==`: false if either is not a number; zeros are equal. -/
def eq : Flt → Flt → Bool
  | fin s m, fin s' m' => (if s then -m else m) = (if s' then -m' else m')
  | inf s, inf s' => s == s'
  | _, _ => false

end Flt

namespace FloatMath

variable (f : Fmt)

/-- `constants< T >::epsilon()` (flut/math/math.hpp:14): the distance from 1 to the next number. -/
def epsilon : Flt := .fin false (2 ^ (1 - (f.prec : Int)))

/-- `inv` (flut/math/math.hpp:45). -/
def inv (v : Flt) : Flt := f.div (.fin false 1) v

/-- `squared` (flut/math/math.hpp:54). -/
def squared (v : Flt) : Flt := f.mul v v

/-- `invsqrt` (flut/math/math.hpp:48). -/
def invsqrt (v : Flt) : Flt := f.div (.fin false 1) (f.sqrt v)

/-- `signed_sqrt` (flut/math/math.hpp:51). -/
def signedSqrt (v : Flt) : Flt := if (Flt.fin false 0).le v then f.sqrt v else (f.sqrt v.neg).neg

/-- `squared_length` (flut/math/vec3.hpp:58-59, flut/math/vec3_type.hpp:41). -/
def squaredLength (v : Vec3 Flt) : Flt := f.add (f.add (f.mul v.x v.x) (f.mul v.y v.y)) (f.mul v.z v.z)

/-- `length` (flut/math/vec3.hpp:54-55, flut/math/vec3_type.hpp:40). -/
def length (v : Vec3 Flt) : Flt := f.sqrt (f.add (f.add (f.mul v.x v.x) (f.mul v.y v.y)) (f.mul v.z v.z))

/-- `is_normalized` (flut/math/vec3.hpp:62-63); the `bool` is converted to `T` and means the same. -/
def isNormalized (v : Vec3 Flt) : Bool := equals f (squaredLength f v) (.fin false 1) (relaxedEpsilon f)

/-- `distance` (flut/math/vec3.hpp:66-67). -/
def distance (v1 v2 : Vec3 Flt) : Flt :=
  f.sqrt (f.add (f.add (squared f (f.sub v1.x v2.x)) (squared f (f.sub v1.y v2.y))) (squared f (f.sub v1.z v2.z)))

/-- `*` of a vector and a number of type `T` (flut/math/vec3.hpp:31-38). -/
def scale (v : Vec3 Flt) (s : Flt) : Vec3 Flt := ⟨f.mul v.x s, f.mul v.y s, f.mul v.z s⟩

/-- `/` of a vector and a number (flut/math/vec3.hpp:41-46). -/
def divide (v : Vec3 Flt) (s : Flt) : Vec3 Flt :=
  let ms := inv f s
  ⟨f.mul v.x ms, f.mul v.y ms, f.mul v.z ms⟩

/-- `normalize`, `normalized` (flut/math/vec3.hpp:76-81). -/
def normalize (v : Vec3 Flt) : Vec3 Flt :=
  let l := length f v
  if (epsilon f).lt l then
    let s := inv f l
    ⟨f.mul v.x s, f.mul v.y s, f.mul v.z s⟩
  else v

/-- The member function `normalized` (flut/math/vec3_type.hpp:44), without a threshold. -/
def normalizedMember (v : Vec3 Flt) : Vec3 Flt :=
  let s := inv f (length f v)
  ⟨f.mul v.x s, f.mul v.y s, f.mul v.z s⟩

/-- `is_null` (flut/math/vec3_type.hpp:42). -/
def isNull (v : Vec3 Flt) : Bool := v.x.eq (.fin false 0) && v.y.eq (.fin false 0) && v.z.eq (.fin false 0)

/-- `dot_product` (flut/math/vec3.hpp:84-85). -/
def dotProduct (v1 v2 : Vec3 Flt) : Flt := f.add (f.add (f.mul v1.x v2.x) (f.mul v1.y v2.y)) (f.mul v1.z v2.z)

/-- `cross_product` (flut/math/vec3.hpp:88-89). -/
def crossProduct (v1 v2 : Vec3 Flt) : Vec3 Flt :=
  ⟨f.sub (f.mul v1.y v2.z) (f.mul v1.z v2.y), f.sub (f.mul v1.z v2.x) (f.mul v1.x v2.z), f.sub (f.mul v1.x v2.y) (f.mul v1.y v2.x)⟩

/-- The assertion at the start of `quat_from_axis_angle` (flut/math/quat.hpp:72). The rest of the function, which uses `sin` and `cos`, is
not modelled here. -/
def axisAssert (axis : Vec3 Flt) : Res Unit := if isNormalized f axis then .ok () else .throws .assertion

/-- `length` of a quaternion (flut/math/quat.hpp:44-45). -/
def quatLength (q : Quat Flt) : Flt :=
  f.sqrt (f.add (f.add (f.add (f.mul q.w q.w) (f.mul q.x q.x)) (f.mul q.y q.y)) (f.mul q.z q.z))

/-- `is_normalized` of a quaternion (flut/math/quat.hpp:48-49). -/
def quatIsNormalized (q : Quat Flt) : Bool :=
  equals f (f.add (f.add (f.add (f.mul q.w q.w) (f.mul q.x q.x)) (f.mul q.y q.y)) (f.mul q.z q.z)) (.fin false 1) (relaxedEpsilon f)

/-- `normalize`, `normalized` of a quaternion (flut/math/quat.hpp:52-67); the sum is not in the order of `length`. -/
def quatNormalize (q : Quat Flt) : Quat Flt :=
  let l := f.sqrt (f.add (f.add (f.add (f.mul q.x q.x) (f.mul q.y q.y)) (f.mul q.z q.z)) (f.mul q.w q.w))
  if (epsilon f).lt l then
    let invl := inv f l
    ⟨f.mul q.w invl, f.mul q.x invl, f.mul q.y invl, f.mul q.z invl⟩
  else q

end FloatMath

end Flut
