import Verif.Model.FloatMath
import Verif.Model.Numeric

/-! # Bounding boxes of floating-point numbers -/

namespace Flut

namespace FloatMath

/-- The default constructor (flut/math/bounding_box.hpp:12) with `constants::max` and `lowest` (flut/math/math.hpp:18-20). -/
def boxEmpty (f : Fmt) : BBox Flt :=
  ⟨⟨.fin false f.maxVal, .fin false f.maxVal, .fin false f.maxVal⟩, ⟨.fin true f.maxVal, .fin true f.maxVal, .fin true f.maxVal⟩⟩

/-- The constructor from a point (flut/math/bounding_box.hpp:13). -/
def boxOf (p : Vec3 Flt) : BBox Flt := ⟨p, p⟩

/-- `operator+=` with a point (flut/math/bounding_box.hpp:16-24). -/
def boxAddPoint (b : BBox Flt) (v : Vec3 Flt) : BBox Flt :=
  ⟨⟨setIfSmaller b.lower.x v.x, setIfSmaller b.lower.y v.y, setIfSmaller b.lower.z v.z⟩,
   ⟨setIfBigger b.upper.x v.x, setIfBigger b.upper.y v.y, setIfBigger b.upper.z v.z⟩⟩

/-- `operator+=` with a box (flut/math/bounding_box.hpp:26-34). -/
def boxAddBox (b c : BBox Flt) : BBox Flt :=
  ⟨⟨setIfSmaller b.lower.x c.lower.x, setIfSmaller b.lower.y c.lower.y, setIfSmaller b.lower.z c.lower.z⟩,
   ⟨setIfBigger b.upper.x c.upper.x, setIfBigger b.upper.y c.upper.y, setIfBigger b.upper.z c.upper.z⟩⟩

/-- One addition. -/
def boxAdd (b : BBox Flt) : BBox.Op Flt → BBox Flt
  | .point p => boxAddPoint b p
  | .box c => boxAddBox b c

/-- A sequence of additions. -/
def boxAddAll (b : BBox Flt) (ops : List (BBox.Op Flt)) : BBox Flt := ops.foldl boxAdd b

end FloatMath

end Flut
