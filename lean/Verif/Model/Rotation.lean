import Verif.Model.MathTypes
import Verif.Model.Scalar

/-!
# Vectors, quaternions and transforms: `flut/math/vec3.hpp`, `vec4.hpp`, `quat.hpp`, `transform.hpp`, `mat33.hpp`

The functions without roots and angles, over any field. Floating point numbers are modelled as exact.
-/

namespace Flut

variable {K : Type} [Field K]

namespace Vec3

/-- `operator+`, `operator+=` (flut/math/vec3.hpp:12-16). -/
def add (a b : Vec3 K) : Vec3 K := ⟨a.x + b.x, a.y + b.y, a.z + b.z⟩

/-- `operator-`, `operator-=` (flut/math/vec3.hpp:19-23). -/
def sub (a b : Vec3 K) : Vec3 K := ⟨a.x - b.x, a.y - b.y, a.z - b.z⟩

/-- Unary `operator-` (flut/math/vec3.hpp:26-27). -/
def neg (v : Vec3 K) : Vec3 K := ⟨-v.x, -v.y, -v.z⟩

/-- `operator*` with a scalar, `operator*=` (flut/math/vec3.hpp:30-37). -/
def smul (s : K) (v : Vec3 K) : Vec3 K := ⟨v.x * s, v.y * s, v.z * s⟩

/-- `operator/`, `operator/=` (flut/math/vec3.hpp:40-44). -/
def sdiv (v : Vec3 K) (s : K) : Vec3 K := ⟨v.x * (1 / s), v.y * (1 / s), v.z * (1 / s)⟩

/-- `squared_length` (flut/math/vec3.hpp:58-59, flut/math/vec3_type.hpp:41). -/
def sqLength (v : Vec3 K) : K := v.x * v.x + v.y * v.y + v.z * v.z

/-- `dot_product` (flut/math/vec3.hpp:84-85). -/
def dot (a b : Vec3 K) : K := a.x * b.x + a.y * b.y + a.z * b.z

/-- `cross_product` (flut/math/vec3.hpp:88-89). -/
def cross (a b : Vec3 K) : Vec3 K := ⟨a.y * b.z - a.z * b.y, a.z * b.x - a.x * b.z, a.x * b.y - a.y * b.x⟩

/-- `operator*`, `operator*=` of two vectors (flut/math/vec3.hpp:47-51). -/
def mask (a b : Vec3 K) : Vec3 K := ⟨a.x * b.x, a.y * b.y, a.z * b.z⟩

/-- `is_null` (flut/math/vec3_type.hpp:42). -/
def isNull [DecidableEq K] (v : Vec3 K) : Bool := v.x = 0 && v.y = 0 && v.z = 0

/-- `operator[]` (flut/math/vec3_type.hpp:30-31): an index beyond the last component is undefined. -/
def comp (v : Vec3 K) : Nat → Option K
  | 0 => some v.x
  | 1 => some v.y
  | 2 => some v.z
  | _ => none

/-- `unit` (flut/math/vec3_type.hpp:55). -/
def unit (i : Nat) : Vec3 K := ⟨if i = 0 then 1 else 0, if i = 1 then 1 else 0, if i = 2 then 1 else 0⟩

/-- `zero` (flut/math/vec3_type.hpp:47). -/
def zero : Vec3 K := ⟨0, 0, 0⟩

/-- `unit_x` (flut/math/vec3_type.hpp:48). -/
def unitX : Vec3 K := ⟨1, 0, 0⟩

/-- `unit_y` (flut/math/vec3_type.hpp:49). -/
def unitY : Vec3 K := ⟨0, 1, 0⟩

/-- `unit_z` (flut/math/vec3_type.hpp:50). -/
def unitZ : Vec3 K := ⟨0, 0, 1⟩

end Vec3

namespace Quat

/-- `identity` (flut/math/quat_type.hpp:30). -/
def one : Quat K := ⟨1, 0, 0, 0⟩

/-- `operator*` of two quaternions (flut/math/quat.hpp:19-26). -/
def mul (a b : Quat K) : Quat K :=
  ⟨a.w * b.w - a.x * b.x - a.y * b.y - a.z * b.z,
   a.w * b.x + a.x * b.w + a.y * b.z - a.z * b.y,
   a.w * b.y + a.y * b.w + a.z * b.x - a.x * b.z,
   a.w * b.z + a.z * b.w + a.x * b.y - a.y * b.x⟩

/-- `operator*` of a quaternion and a vector (flut/math/quat.hpp:29-37). -/
def rot (q : Quat K) (v : Vec3 K) : Vec3 K :=
  let qv : Vec3 K := ⟨q.x, q.y, q.z⟩
  let uv := qv.cross v
  let uuv := qv.cross uv
  let uv := uv.smul (2 * q.w)
  let uuv := uuv.smul 2
  (v.add uv).add uuv

/-- Unary `operator-`: the conjugate (flut/math/quat.hpp:40-41). -/
def conj (q : Quat K) : Quat K := ⟨q.w, -q.x, -q.y, -q.z⟩

/-- What `length`, `is_normalized` and `normalize` take the root of (flut/math/quat.hpp:45,49,54). -/
def sqLength (q : Quat K) : K := q.w * q.w + q.x * q.x + q.y * q.y + q.z * q.z

/-- `quat_from_quats` (flut/math/quat.hpp:155-156): unary minus binds tighter. -/
def between (source target : Quat K) : Quat K := source.conj.mul target

end Quat

namespace Trans

/-- `identity` (flut/math/transform.hpp:42). -/
def one : Trans K := ⟨Vec3.zero, Quat.one⟩

/-- `operator-`, `inverse` (flut/math/transform.hpp:28-29). -/
def inverse (t : Trans K) : Trans K :=
  let iq := t.q.conj
  ⟨iq.rot t.p.neg, iq⟩

/-- `operator*`, `transform` of a vector (flut/math/transform.hpp:31-32). -/
def applyV (t : Trans K) (v : Vec3 K) : Vec3 K := t.p.add (t.q.rot v)

/-- `inv_transform` of a vector (flut/math/transform.hpp:33). -/
def invApplyV (t : Trans K) (v : Vec3 K) : Vec3 K := t.q.conj.rot (v.sub t.p)

/-- `operator*`, `transform` of a quaternion (flut/math/transform.hpp:35-36). -/
def applyQ (t : Trans K) (o : Quat K) : Quat K := t.q.mul o

/-- `inv_transform` of a quaternion (flut/math/transform.hpp:37). -/
def invApplyQ (t : Trans K) (o : Quat K) : Quat K := t.q.conj.mul o

/-- `operator*`, `transform` of a transform (flut/math/transform.hpp:27,39). -/
def mul (t u : Trans K) : Trans K := ⟨t.p.add (t.q.rot u.p), t.q.mul u.q⟩

/-- `inv_transform` of a transform (flut/math/transform.hpp:40). -/
def invMul (t u : Trans K) : Trans K := ⟨t.q.conj.rot (u.p.sub t.p), t.q.conj.mul u.q⟩

end Trans

/-- `vec4_` (flut/math/vec4_type.hpp:11-32). -/
structure Vec4 (α : Type) where
  x : α
  y : α
  z : α
  w : α
deriving DecidableEq

namespace Vec4

/-- `operator+`, `operator+=` (flut/math/vec4.hpp:11-15). -/
def add (a b : Vec4 K) : Vec4 K := ⟨a.x + b.x, a.y + b.y, a.z + b.z, a.w + b.w⟩

/-- `operator-=` (flut/math/vec4.hpp:21-22): the fourth component is left out. The binary `operator-` (lines 18-19) calls a
constructor that does not exist and is not modelled. -/
def subAssign (a b : Vec4 K) : Vec4 K := ⟨a.x - b.x, a.y - b.y, a.z - b.z, a.w⟩

/-- Unary `operator-` (flut/math/vec4.hpp:25-26). -/
def neg (v : Vec4 K) : Vec4 K := ⟨-v.x, -v.y, -v.z, v.w⟩

/-- `operator*` with a scalar, `operator*=` (flut/math/vec4.hpp:29-36). -/
def smul (s : K) (v : Vec4 K) : Vec4 K := ⟨v.x * s, v.y * s, v.z * s, v.w⟩

/-- `operator/`, `operator/=` (flut/math/vec4.hpp:39-43). -/
def sdiv (v : Vec4 K) (s : K) : Vec4 K := ⟨v.x * (1 / s), v.y * (1 / s), v.z * (1 / s), v.w⟩

/-- `squared_length` (flut/math/vec4_type.hpp:23). -/
def sqLength (v : Vec4 K) : K := v.x * v.x + v.y * v.y + v.z * v.z + v.w * v.w

end Vec4

/-- `mat33_` (flut/math/mat33_type.hpp:10-21), by row and column. -/
abbrev Mat33 (K : Type) := Nat → Nat → K

/-- `mat33_from_axes` (flut/math/mat33.hpp:10-12): the entries are stored row by row. -/
def mat33FromAxes (x y z : Vec3 K) : Mat33 K := fun row col =>
  ([x.x, y.x, z.x, x.y, y.y, z.y, x.z, y.z, z.z]).getD (row * 3 + col) 0

end Flut
