import Verif.Model.FloatVec
import Verif.Model.Numeric

/-! # Running averages in floating-point arithmetic -/

namespace Flut

namespace FloatMath

variable (f : Fmt)

/-- The constructor of `average_` (flut/math/average.hpp:12), and `reset` (line 18). -/
def avgNew : Avg Flt := ⟨.fin false 0, .fin false 0⟩

/-- `add` (flut/math/average.hpp:15). -/
def avgAdd (a : Avg Flt) (value w : Flt) : Avg Flt := ⟨f.add a.totV (f.mul w value), f.add a.totW w⟩

/-- `get` (flut/math/average.hpp:16). -/
def avgGet (a : Avg Flt) : Flt := if (Flt.fin false 0).lt a.totW then f.div a.totV a.totW else .fin false 0

/-- `empty` (flut/math/average.hpp:17). -/
def avgEmpty (a : Avg Flt) : Bool := a.totW.eq (.fin false 0)

/-- A sequence of `add( value, w )`. -/
def avgAll (a : Avg Flt) (l : List (Flt × Flt)) : Avg Flt := l.foldl (fun a vw => avgAdd f a vw.1 vw.2) a

end FloatMath

end Flut
