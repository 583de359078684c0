import Verif.Model.FloatVec
import Verif.Model.Rotation

/-! # A quaternion from three axes, in floating-point arithmetic -/

namespace Flut

namespace FloatMath

variable (f : Fmt)

/-- `mat33_from_axes` (flut/math/mat33.hpp:10-12): the entries are stored row by row. -/
def matFromAxes (x y z : Vec3 Flt) : Mat33 Flt := fun row col =>
  ([x.x, y.x, z.x, x.y, y.y, z.y, x.z, y.z, z.z]).getD (row * 3 + col) (.fin false 0)

/-- Assigns `q_xyz[i]`, a pointer to the components after `w` (flut/math/quat.hpp:209-214). -/
def quatSet (q : Quat Flt) (i : Nat) (v : Flt) : Quat Flt :=
  match i with
  | 0 => { q with x := v }
  | 1 => { q with y := v }
  | _ => { q with z := v }

/-- The largest of the three entries of the diagonal, the first one of equal ones (flut/math/quat.hpp:203-205). -/
def pivotOf (m : Mat33 Flt) : Nat :=
  let i := if (m 0 0).lt (m 1 1) then 1 else 0
  if (m i i).lt (m 2 2) then 2 else i

/-- The half of a root and the factor of the others, `0.5 * root` and `0.5 / root` (flut/math/quat.hpp:194-196,208-211). -/
def halves (s : Flt) : Flt × Flt :=
  let root := f.sqrt s
  (f.mul (.fin false (1 / 2)) root, f.div (.fin false (1 / 2)) root)

/-- The branch of a positive trace (flut/math/quat.hpp:194-199). -/
def axesTrace (m : Mat33 Flt) (t : Flt) : Quat Flt :=
  let (h, root) := halves f (f.add t (.fin false 1))
  ⟨h, f.mul (f.sub (m 2 1) (m 1 2)) root, f.mul (f.sub (m 0 2) (m 2 0)) root, f.mul (f.sub (m 1 0) (m 0 1)) root⟩

/-- The other branch (flut/math/quat.hpp:203-214). -/
def axesPivot (m : Mat33 Flt) : Quat Flt :=
  let i := pivotOf m
  let j := (i + 1) % 3
  let k := (j + 1) % 3
  let (h, root) := halves f (f.add (f.sub (f.sub (m i i) (m j j)) (m k k)) (.fin false 1))
  let q : Quat Flt := quatSet ⟨.fin false 1, .fin false 0, .fin false 0, .fin false 0⟩ i h
  let q := { q with w := f.mul (f.sub (m k j) (m j k)) root }
  let q := quatSet q j (f.mul (f.add (m j i) (m i j)) root)
  quatSet q k (f.mul (f.add (m k i) (m i k)) root)

/-- `quat_from_axes` (flut/math/quat.hpp:185-218). The assertion about the lengths of the axes is commented out in the code. -/
def axesQuat (x y z : Vec3 Flt) : Quat Flt :=
  let m := matFromAxes x y z
  let t := f.add (f.add (m 0 0) (m 1 1)) (m 2 2)
  if Flt.lt (.fin false 0) t then axesTrace f m t else axesPivot f m

end FloatMath

end Flut
