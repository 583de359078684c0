import Verif.Basic
import Verif.Model.MathTypes

/-!
# Vectors whose components are of type `int`
-/

namespace Flut

namespace IntVec

/-- The result of an operation on `int`: overflow is undefined. -/
def chk (x : Int) : Res Int := if -2 ^ 31 ≤ x ∧ x < 2 ^ 31 then .ok x else .ub

/-- A vector, component by component. -/
def each (x y z : Int) : Res (Vec3 Int) := do
  let a ← chk x
  let b ← chk y
  let c ← chk z
  .ok ⟨a, b, c⟩

/-- `+` (flut/math/vec3.hpp:12-16). -/
def add (v w : Vec3 Int) : Res (Vec3 Int) := each (v.x + w.x) (v.y + w.y) (v.z + w.z)

/-- `*` by a number of type `int` (flut/math/vec3.hpp:31-38). -/
def scale (v : Vec3 Int) (s : Int) : Res (Vec3 Int) := each (v.x * s) (v.y * s) (v.z * s)

/-- `inv< int >` (flut/math/math.hpp:45). -/
def inv (s : Int) : Res Int := if s = 0 then .ub else chk (Int.tdiv 1 s)

/-- `/` (flut/math/vec3.hpp:41-46): the product with the inverse. -/
def divide (v : Vec3 Int) (s : Int) : Res (Vec3 Int) := do
  let ms ← inv s
  scale v ms

/-- `squared_length` (flut/math/vec3.hpp:58-59). -/
def squaredLength (v : Vec3 Int) : Res Int := do
  let a ← chk (v.x * v.x)
  let b ← chk (v.y * v.y)
  let c ← chk (v.z * v.z)
  let d ← chk (a + b)
  chk (d + c)

/-- `length` (flut/math/vec3.hpp:54-55): `sqrt` in `double`, and converted to `int`. The root of a number of 31 bits that is not a whole
number is far enough from one that rounding does not matter. -/
def length (v : Vec3 Int) : Res Int := do
  let s ← squaredLength v
  .ok (Nat.sqrt s.toNat)

/-- `normalize`, `normalized` (flut/math/vec3.hpp:76-81); `epsilon` is 0 for `int`. -/
def normalized (v : Vec3 Int) : Res (Vec3 Int) := do
  let l ← length v
  if l > 0 then do
    let s ← inv l
    scale v s
  else .ok v

end IntVec

end Flut
