import Verif.Model.PropNode
import Verif.Model.Scalar
import Verif.Model.Real
import Verif.Model.StreamInt

/-!
# `bounds` as text: `flut/math/bounds.hpp`
-/

namespace Flut

namespace Bounds

/-- `bounds( const prop_node& )` (flut/math/bounds.hpp:44-57); `ofStr` is `from_str< T >`, `lowest` and `max` are the constants
of the type. The access flags of the node are those of a copy here. -/
def ofNode {α : Type} (ofStr : Str → Res α) (lowest max : α) (n : PN) : Res (Bounds α) :=
  if n.hasValue then do
    let lo ← ofStr n.value
    match findSub b!".." n.value with
    | some p => do
      let t ← substr n.value (p + 2) none
      let hi ← ofStr t
      .ok ⟨lo, hi⟩
    | none => .ok ⟨lo, lo⟩
  else if n.size > 0 then do
    let (lo, n) ← PN.getAnyDef (PN.castStr ofStr) [b!"min", b!"lower"] lowest n
    let (hi, _) ← PN.getAnyDef (PN.castStr ofStr) [b!"max", b!"upper"] max n
    .ok ⟨lo, hi⟩
  else .throws .flutError

/-- `operator<<( ostream&, const bounds& )` (flut/math/bounds.hpp:36-38); `toStr` is `<<` for the type. -/
def text {α : Type} (toStr : α → Str) (b : Bounds α) : Str := toStr b.lower ++ b!" " ++ toStr b.upper

/-- `operator>>( char_stream&, bounds& )` (flut/math/bounds.hpp:40-42). -/
def read {α : Type} (get : CharStream → α × CharStream) (s : CharStream) : Bounds α × CharStream :=
  (⟨(get s).1, (get (get s).2).1⟩, (get (get s).2).2)

end Bounds

end Flut
