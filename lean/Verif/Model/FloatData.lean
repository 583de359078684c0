import Verif.Model.Float
import Verif.Basic
import Mathlib.Data.List.Sort

/-!
# Interpolation, averages and polynomials in floating-point arithmetic

`T` is `float` or `double`. (Other files model the same functions in exact arithmetic.)
-/

namespace Flut

namespace FloatMath

variable (f : Fmt)

/-- `( 1 - w ) * a + w * b`, as in flut/buffer/interpolation.hpp:27 and :46. -/
def lerp (w a b : Flt) : Flt := f.add (f.mul (f.sub (.fin false 1) w) a) (f.mul w b)

/-- `interpolated_value` by key (flut/buffer/interpolation.hpp:12-29), for sorted keys: `upper_bound` is the position of the first
element whose key is greater. -/
def interpolatedKey (l : List (Flt × Flt)) (key : Flt) : Res Flt :=
  if l.isEmpty then .throws .assertion
  else
    let ub := l.findIdx fun e => key.lt e.1
    if ub = l.length then (match l[ub - 1]? with | some e => .ok e.2 | none => .ub)
    else if ub = 0 then (match l[ub]? with | some e => .ok e.2 | none => .ub)
    else match l[ub - 1]?, l[ub]? with
      | some lb, some ub => .ok (lerp f (f.div (f.sub key lb.1) (f.sub ub.1 lb.1)) lb.2 ub.2)
      | _, _ => .ub

/-- `interpolated_value` by index (flut/buffer/interpolation.hpp:31-48). The conversion to `size_t` is undefined for values that do not
fit; a number that is not below zero is its magnitude. -/
def interpolatedIndex (l : List Flt) (key : Flt) : Res Flt :=
  if l.isEmpty then .throws .assertion
  else if key.lt (.fin false 0) then (match l[0]? with | some v => .ok v | none => .ub)
  else match key with
    | .fin _ m =>
      if ⌊m⌋ ≥ 2 ^ 64 then .ub
      else
        let lb := ⌊m⌋.toNat
        let ub := (lb + 1) % 2 ^ 64
        if ub ≥ l.length then (match l[l.length - 1]? with | some v => .ok v | none => .ub)
        else match l[lb]?, l[ub]? with
          | some a, some b => .ok (lerp f (f.sub key (f.ofRat lb)) a b)
          | _, _ => .ub
    | _ => .ub

/-- `average` (flut/container_tools.hpp:33-37): `accumulate` from zero, divided by the size. -/
def average (v : List Flt) : Flt := f.div (v.foldl f.add (.fin false 0)) (f.ofRat v.length)

/-- `sorted_copy` (flut/container_tools.hpp:46), for values without NaN. -/
def sortedCopy (v : List Flt) : List Flt := v.insertionSort fun a b => a.le b

/-- `median` (flut/container_tools.hpp:48-54), for values without NaN. -/
def median (vec : List Flt) : Res Flt :=
  if 0 < vec.length then
    let s := vec.length
    let v := sortedCopy vec
    if s % 2 = 1 then (match v[s / 2]? with | some x => .ok x | none => .ub)
    else match v[s / 2]?, v[s / 2 - 1]? with
      | some a, some b => .ok (f.div (f.add a b) (.fin false 2))
      | _, _ => .ub
  else .throws .assertion

/-- The loop of `polynomial::operator()` (flut/math/polynomial.hpp:17). -/
def polyLoop (v : Flt) : List Flt → Flt → Flt → Flt
  | [], result, _ => result
  | c :: cs, result, factor => polyLoop v cs (f.add result (f.mul factor c)) (f.mul factor v)

/-- `polynomial::operator()` (flut/math/polynomial.hpp:14-19), for the coefficients `c0 :: cs`. -/
def polynomial (c0 : Flt) (cs : List Flt) (v : Flt) : Flt := polyLoop f v cs c0 v

/-- `intersect_y` (flut/math/polynomial.hpp:35). -/
def intersectY (offset slope y : Flt) : Flt := f.div (f.sub y offset) slope

end FloatMath

end Flut
