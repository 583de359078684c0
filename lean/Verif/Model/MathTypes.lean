/-!
# Vectors, quaternions and transforms as data

The element type is a parameter, as in the templates.
-/

namespace Flut

/-- `vec3_<T>`, /repo/flut/math/vec3_type.hpp:10-38. -/
structure Vec3 (α : Type) where
  x : α
  y : α
  z : α
  deriving DecidableEq, Repr

/-- `quat_<T>`, /repo/flut/math/quat_type.hpp:10-31. -/
structure Quat (α : Type) where
  w : α
  x : α
  y : α
  z : α
  deriving DecidableEq, Repr

/-- `transform_<T>`, /repo/flut/math/transform.hpp:12-21. -/
structure Trans (α : Type) where
  p : Vec3 α
  q : Quat α
  deriving DecidableEq, Repr

end Flut
