import Verif.Model.Float

/-!
# Catmull-Rom segments in floating-point arithmetic: `flut/math/catmull_rom.hpp`

Points and parameters are of the same type, `float` or `double`. (`Model/Spline.lean` has the same functions in exact arithmetic.)
-/

namespace Flut

namespace FloatMath

variable (f : Fmt)

/-- The members of `catmull_rom_segment` (flut/math/catmull_rom.hpp:18). -/
structure Segment where
  a : Flt
  b : Flt
  c : Flt
  d : Flt
deriving DecidableEq

/-- The constructor of `catmull_rom_segment` (flut/math/catmull_rom.hpp:8-13). The small whole numbers are converted exactly. -/
def segment (p0 p1 p2 p3 : Flt) : Segment where
  a := f.mul (.fin false 2) p1
  b := f.add p0.neg p2
  c := f.sub (f.add (f.sub (f.mul (.fin false 2) p0) (f.mul (.fin false 5) p1)) (f.mul (.fin false 4) p2)) p3
  d := f.add (f.sub (f.add p0.neg (f.mul (.fin false 3) p1)) (f.mul (.fin false 3) p2)) p3

/-- `operator()( t )` (flut/math/catmull_rom.hpp:15). -/
def segmentAt (s : Segment) (t : Flt) : Flt :=
  f.mul (.fin false (1 / 2))
    (f.add (f.add (f.add s.a (f.mul s.b t)) (f.mul (f.mul s.c t) t)) (f.mul (f.mul (f.mul s.d t) t) t))

end FloatMath

end Flut
