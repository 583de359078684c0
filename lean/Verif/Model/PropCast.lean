import Verif.Model.MathTypes
import Verif.Model.PropNode

/-!
# Conversion of structured values to and from `prop_node`

`to` and `from'` are `prop_node_cast<T>::to` and `::from` of the element type.
-/

namespace Flut

namespace PN

/-- `vec3_<T>::operator prop_node`, /repo/flut/math/vec3_type.hpp:28, and `prop_node_cast<vec3_<T>>::to`, line 66. -/
def vec3To {α : Type} (to : α → PN) (v : Vec3 α) : PN :=
  set b!"z" (to v.z) (set b!"y" (to v.y) (set b!"x" (to v.x) nil))

/-- `vec3_<T>::vec3_( const prop_node& )`, /repo/flut/math/vec3_type.hpp:19-21, and `prop_node_cast<vec3_<T>>::from`,
line 65. `zero` is `T()`. `ofText` is line 20: reading three numbers with a `char_stream` over the components read so far;
it is a parameter. The flags set in the argument are not reported. -/
def vec3From {α : Type} (from' : PN → Res α) (zero : α) (ofText : Str → Vec3 α → Res (Vec3 α)) (n : PN) :
    Res (Vec3 α) := do
  let x ← getDef from' b!"x" zero n
  let y ← getDef from' b!"y" zero x.2
  let z ← getDef from' b!"z" zero y.2
  if n.hasValue then ofText n.value ⟨x.1, y.1, z.1⟩ else .ok ⟨x.1, y.1, z.1⟩

/-- `quat_<T>::operator prop_node`, /repo/flut/math/quat_type.hpp:24. -/
def quatTo {α : Type} (to : α → PN) (q : Quat α) : PN :=
  set b!"z" (to q.z) (set b!"y" (to q.y) (set b!"x" (to q.x) (set b!"w" (to q.w) nil)))

/-- `quat_<T>::quat_( const prop_node& )`, /repo/flut/math/quat_type.hpp:15. -/
def quatFrom {α : Type} (from' : PN → Res α) (n : PN) : Res (Quat α) := do
  let w ← getKeyed from' b!"w" n
  let x ← getKeyed from' b!"x" w.2
  let y ← getKeyed from' b!"y" x.2
  let z ← getKeyed from' b!"z" y.2
  .ok ⟨w.1, x.1, y.1, z.1⟩

/-- `transform_<T>::operator prop_node`, /repo/flut/math/transform.hpp:24. -/
def transTo {α : Type} (to : α → PN) (t : Trans α) : PN :=
  set b!"q" (quatTo to t.q) (set b!"p" (vec3To to t.p) nil)

/-- `transform_<T>::transform_( const prop_node& )`, /repo/flut/math/transform.hpp:15. `pn[ key ]` of a const node is
`get_child` (/repo/flut/prop_node.hpp:189). -/
def transFrom {α : Type} (from' : PN → Res α) (zero : α) (ofText : Str → Vec3 α → Res (Vec3 α)) (n : PN) :
    Res (Trans α) := do
  let p ← getChild b!"p" n
  let pv ← match p.2.children[p.1]? with
    | some kn => vec3From from' zero ofText kn.2
    | none => .ub
  let q ← getChild b!"q" p.2
  let qv ← match q.2.children[q.1]? with
    | some kn => quatFrom from' kn.2
    | none => .ub
  .ok ⟨pv, qv⟩

end PN

end Flut
