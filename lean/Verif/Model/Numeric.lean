import Verif.Basic
import Verif.Model.Rotation
import Verif.Model.Tools
import Mathlib.Algebra.Order.Floor.Ring

/-!
# Accumulators, ranges, functions and filters

`flut/math/bounding_box.hpp`, `average.hpp`, `delta.hpp`, `polynomial.hpp`, `irange.hpp`, `optional.hpp`, `linear_regression.hpp`,
`regular_piecewise_linear_function.hpp`, `delayer.hpp`, `flut/filter.hpp` and `flut/buffer/interpolation.hpp`. Floating point numbers
are modelled by an ordered field; a division by zero has no value (`ub`) where the model returns a `Res`.
-/

namespace Flut

variable {K : Type} [Field K] [LinearOrder K]

/-! ## Bounding boxes -/

/-- `bounding_box_` (flut/math/bounding_box.hpp:9-38). -/
structure BBox (K : Type) where
  lower : Vec3 K
  upper : Vec3 K
deriving DecidableEq

namespace BBox

/-- The default constructor (flut/math/bounding_box.hpp:12), for the greatest and least number of the type. -/
def empty (max lowest : K) : BBox K := ⟨⟨max, max, max⟩, ⟨lowest, lowest, lowest⟩⟩

/-- The constructor from a point (flut/math/bounding_box.hpp:13). -/
def ofPoint (p : Vec3 K) : BBox K := ⟨p, p⟩

/-- `operator+=` with a point (flut/math/bounding_box.hpp:16-24). -/
def addPoint (b : BBox K) (v : Vec3 K) : BBox K :=
  ⟨⟨setIfSmaller b.lower.x v.x, setIfSmaller b.lower.y v.y, setIfSmaller b.lower.z v.z⟩,
   ⟨setIfBigger b.upper.x v.x, setIfBigger b.upper.y v.y, setIfBigger b.upper.z v.z⟩⟩

/-- `operator+=` with a box (flut/math/bounding_box.hpp:26-34). -/
def addBox (b c : BBox K) : BBox K :=
  ⟨⟨setIfSmaller b.lower.x c.lower.x, setIfSmaller b.lower.y c.lower.y, setIfSmaller b.lower.z c.lower.z⟩,
   ⟨setIfBigger b.upper.x c.upper.x, setIfBigger b.upper.y c.upper.y, setIfBigger b.upper.z c.upper.z⟩⟩

/-- What can be added. -/
inductive Op (K : Type) where
  | point (p : Vec3 K)
  | box (b : BBox K)

/-- One addition. -/
def add (b : BBox K) : Op K → BBox K
  | .point p => b.addPoint p
  | .box c => b.addBox c

/-- A sequence of additions. -/
def addAll (b : BBox K) (ops : List (Op K)) : BBox K := ops.foldl add b

end BBox

/-! ## Average and delta -/

/-- `average_` (flut/math/average.hpp:9-23). -/
structure Avg (K : Type) where
  totV : K
  totW : K
deriving DecidableEq

namespace Avg

/-- The constructor (flut/math/average.hpp:12), and `reset` (line 18). -/
def new : Avg K := ⟨0, 0⟩

/-- `add` (flut/math/average.hpp:15). -/
def add (a : Avg K) (value w : K) : Avg K := ⟨a.totV + w * value, a.totW + w⟩

/-- `get` (flut/math/average.hpp:16). -/
def get (a : Avg K) : K := if a.totW > 0 then a.totV / a.totW else 0

/-- `empty` (flut/math/average.hpp:17). -/
def empty (a : Avg K) : Bool := a.totW = 0

/-- `reset` (flut/math/average.hpp:18). -/
def reset (_ : Avg K) : Avg K := ⟨0, 0⟩

/-- A sequence of `add( value, w )`. -/
def addAll (a : Avg K) (l : List (K × K)) : Avg K := l.foldl (fun a vw => a.add vw.1 vw.2) a

end Avg

/-- `delta` (flut/math/delta.hpp:5-13) called with a sequence of values: what the calls return. -/
def deltas (previous : K) : List K → List K
  | [] => []
  | v :: vs => (v - previous) :: deltas v vs

/-! ## Polynomials -/

/-- The loop of `polynomial::operator()` (flut/math/polynomial.hpp:17). -/
def polyLoop (v : K) : List K → K → K → K
  | [], result, _ => result
  | c :: cs, result, factor => polyLoop v cs (result + factor * c) (factor * v)

/-- `polynomial::operator()` (flut/math/polynomial.hpp:14-19). The list of coefficients is never empty there. -/
def polyEval (coeff : List K) (v : K) : Res K :=
  match coeff with
  | [] => .ub
  | c :: cs => .ok (polyLoop v cs c v)

/-- `linear_function` (flut/math/polynomial.hpp:31), with `offset` and `slope` (lines 24-25). -/
structure Linear (K : Type) where
  offset : K
  slope : K
deriving DecidableEq

/-- The coefficients of a linear function. -/
def Linear.coeff (f : Linear K) : List K := [f.offset, f.slope]

/-- `intersect_y` (flut/math/polynomial.hpp:35). -/
def intersectY (f : Linear K) (y : K) : K := (y - f.offset) / f.slope

/-! ## Ranges -/

/-- `for ( auto i : irange_step( v, e, s ) )` (flut/math/irange.hpp:33-57): the values visited, or `none` if the loop has not ended
after the given number of rounds. Integers are unbounded. -/
def visits : Nat → Int → Int → Int → Option (List Int)
  | 0, _, _, _ => none
  | n + 1, v, e, s => if v != e then (visits n (v + s) e s).map (v :: ·) else some []

/-- `for ( auto i : irange( v, e ) )` (flut/math/irange.hpp:7-31). -/
def visits1 (n : Nat) (v e : Int) : Option (List Int) := visits n v e 1

/-! ## `optional` -/

/-- The general `optional` (flut/math/optional.hpp:9-21). -/
structure OptGen (α : Type) where
  value : Option α
  has : Bool

namespace OptGen

variable {α : Type}

/-- The default constructor (flut/math/optional.hpp:12). The value is whatever its own default constructor leaves. -/
def new : OptGen α := ⟨none, false⟩

/-- Construction from a value (flut/math/optional.hpp:13-14). -/
def ofValue (v : α) : OptGen α := ⟨some v, true⟩

/-- Assignment (flut/math/optional.hpp:15-16). -/
def assign (_ : OptGen α) (v : α) : OptGen α := ⟨some v, true⟩

/-- `operator bool` (flut/math/optional.hpp:17). -/
def toBool (o : OptGen α) : Bool := o.has

/-- `operator*` (flut/math/optional.hpp:18). -/
def get (o : OptGen α) : Option α := o.value

/-- Reading from a stream (flut/math/optional.hpp:45-49): the value read, or `none` if the stream failed. -/
def read (o : OptGen α) : Option α → OptGen α
  | some v => o.assign v
  | none => o

end OptGen

/-- `constants<T>::sentinel` (flut/math/math.hpp:22) of an integral type. -/
def sentinel (signed : Bool) (w : Nat) : BitVec w := if signed then BitVec.intMin w else BitVec.allOnes w

/-- The integral `optional` (flut/math/optional.hpp:23-32). -/
structure OptInt (signed : Bool) (w : Nat) where
  value : BitVec w
deriving DecidableEq

namespace OptInt

variable {signed : Bool} {w : Nat}

/-- The default constructor (flut/math/optional.hpp:26). -/
def new : OptInt signed w := ⟨sentinel signed w⟩

/-- Construction and assignment from a value (flut/math/optional.hpp:27-28). -/
def ofValue (v : BitVec w) : OptInt signed w := ⟨v⟩

/-- `operator bool` (flut/math/optional.hpp:29). -/
def toBool (o : OptInt signed w) : Bool := o.value != sentinel signed w

/-- `operator*` (flut/math/optional.hpp:30). -/
def get (o : OptInt signed w) : BitVec w := o.value

end OptInt

/-- A floating point number that may be a NaN. -/
abbrev MaybeNan (K : Type) := Option K

/-- `operator==` on floating point numbers: a NaN is not equal to anything. -/
def nanEq [DecidableEq K] : MaybeNan K → MaybeNan K → Bool
  | some a, some b => a = b
  | _, _ => false

/-- The floating point `optional` (flut/math/optional.hpp:34-43). -/
structure OptFloat (K : Type) where
  value : MaybeNan K

namespace OptFloat

/-- The default constructor (flut/math/optional.hpp:37). -/
def new : OptFloat K := ⟨none⟩

/-- Construction and assignment from a value (flut/math/optional.hpp:38-39). -/
def ofValue (v : MaybeNan K) : OptFloat K := ⟨v⟩

/-- `operator bool` (flut/math/optional.hpp:40). -/
def toBool (o : OptFloat K) : Bool := nanEq o.value o.value

/-- `operator*` (flut/math/optional.hpp:41). -/
def get (o : OptFloat K) : MaybeNan K := o.value

end OptFloat

/-! ## Linear regression -/

/-- The loop of `linear_regression` (flut/math/linear_regression.hpp:22-26): numerator and denominator. -/
def regressionLoop (avgx avgy : K) : List (K × K) → K → K → K × K
  | [], num, den => (num, den)
  | (x, y) :: l, num, den => regressionLoop avgx avgy l (num + (x - avgx) * (y - avgy)) (den + (x - avgx) * (x - avgx))

/-- `linear_regression` of two ranges (flut/math/linear_regression.hpp:10-29, 48-50). -/
def linearRegression (xs ys : List K) : Res (Linear K) :=
  if xs.length ≠ ys.length then .throws .assertion
  else do
    let avgx ← Tools.average xs
    let avgy ← Tools.average ys
    let nd := regressionLoop avgx avgy (xs.zip ys) 0 0
    if nd.2 = 0 then .ub
    else
      let slope := nd.1 / nd.2
      .ok ⟨avgy - slope * avgx, slope⟩

/-- The loop of `linear_regression` with a fixed step (flut/math/linear_regression.hpp:40-41). -/
def regressionStepLoop (avgx avgy step : K) : List K → K → K → K
  | [], _, num => num
  | y :: l, x, num => regressionStepLoop avgx avgy step l (x + step) (num + (x - avgx) * (y - avgy))

/-- `linear_regression` with a fixed step (flut/math/linear_regression.hpp:31-46). -/
def linearRegressionStep (xBegin xStep : K) (cy : List K) : Res (Linear K) :=
  let n := cy.length
  let avgx := xBegin + (((n - 1 : Nat) : K) * xStep) / 2
  do
    let avgy ← Tools.average cy
    let num := regressionStepLoop avgx avgy xStep cy xBegin 0
    let hsiz := ((n - 1 : Nat) : K) * xStep / 2
    if 3 * xStep = 0 then .ub
    else
      let den := hsiz * (hsiz + xStep) * (2 * hsiz + xStep) / (3 * xStep)
      if den = 0 then .ub
      else
        let slope := num / den
        .ok ⟨avgy - slope * avgx, slope⟩

/-! ## Interpolation -/

/-- `buffer_access::upper_bound` (flut/buffer/buffer_access.hpp:22-25): for sorted keys, the position of the first element whose key is
greater. -/
def upperBound (l : List (K × K)) (key : K) : Nat := l.findIdx fun e => key < e.1

/-- `interpolated_value` by key (flut/buffer/interpolation.hpp:12-29). -/
def interpolatedKey (l : List (K × K)) (key : K) : Res K :=
  if l.isEmpty then .throws .assertion
  else
    let ub := upperBound l key
    if ub = l.length then (match l[ub - 1]? with | some e => .ok e.2 | none => .ub)
    else if ub = 0 then (match l[ub]? with | some e => .ok e.2 | none => .ub)
    else match l[ub - 1]?, l[ub]? with
      | some lb, some ub =>
        if ub.1 - lb.1 = 0 then .ub
        else
          let uw := (key - lb.1) / (ub.1 - lb.1)
          .ok ((1 - uw) * lb.2 + uw * ub.2)
      | _, _ => .ub

section Floor

variable [FloorRing K]

/-- `interpolated_value` by index (flut/buffer/interpolation.hpp:31-48). The conversion to `size_t` is undefined for values that do not
fit. -/
def interpolatedIndex (l : List K) (key : K) : Res K :=
  if l.isEmpty then .throws .assertion
  else if key < 0 then (match l[0]? with | some v => .ok v | none => .ub)
  else if ⌊key⌋ ≥ 2 ^ 64 then .ub
  else
    let lb := ⌊key⌋.toNat
    let ub := (lb + 1) % 2 ^ 64
    if ub ≥ l.length then (match l[l.length - 1]? with | some v => .ok v | none => .ub)
    else
      let w := key - (lb : K)
      match l[lb]?, l[ub]? with
      | some a, some b => .ok ((1 - w) * a + w * b)
      | _, _ => .ub

/-! ## Piecewise linear functions -/

/-- `regular_piecewise_linear_function` (flut/math/regular_piecewise_linear_function.hpp:11-40). -/
structure Rplf (K : Type) where
  base : K
  step : K
  points : Int
  data : List K

/-- The constructor (flut/math/regular_piecewise_linear_function.hpp:14-23), for a positive number of intervals. -/
def Rplf.new (xMin xMax : K) (intervals : Nat) (fn : K → K) : Rplf K :=
  let step := (xMax - xMin) / (intervals : K)
  ⟨xMin, step, (intervals : Int) + 1, (List.range (intervals + 1)).map fun i : Nat => fn (xMin + (i : K) * step)⟩

/-- `clamp` (flut/math/math.hpp:76-77) on `int`. -/
def clampInt (v min max : Int) : Int := if v < min then min else if v > max then max else v

/-- `operator()` (flut/math/regular_piecewise_linear_function.hpp:25-33). The conversion to `int` is undefined for values that do not
fit. -/
def Rplf.eval (f : Rplf K) (x : K) : Res K :=
  let idx := (x - f.base) / f.step
  if ⌊idx⌋ < -2 ^ 31 ∨ ⌊idx⌋ ≥ 2 ^ 31 then .ub
  else
    let lb := clampInt ⌊idx⌋ 0 (f.points - 2)
    let w := idx - (lb : K)
    if lb < 0 then .ub
    else match f.data[lb.toNat]?, f.data[(lb + 1).toNat]? with
      | some a, some b => .ok ((1 - w) * a + w * b)
      | _, _ => .ub

end Floor

/-! ## Filters -/

/-- `iir_filter` (flut/filter.hpp:8-35): arrays as functions of the index, of which those below `N` are used. -/
structure Iir (K : Type) where
  b0 : K
  b : Nat → K
  a : Nat → K
  x : Nat → K
  y : Nat → K

namespace Iir

/-- The constructor (flut/filter.hpp:11) followed by setting the coefficients. -/
def new (b0 : K) (b a : Nat → K) : Iir K := ⟨b0, b, a, fun _ => 0, fun _ => 0⟩

/-- The loop of flut/filter.hpp:14-15, with `n` rounds to go from `i`. -/
def sumLoop (f : Iir K) : Nat → Nat → K → K
  | 0, _, y => y
  | n + 1, i, y => sumLoop f n (i + 1) (y + (f.b i * f.x i + f.a i * f.y i))

/-- The loop of flut/filter.hpp:18-21 on one of the two arrays, from `i` down to 1. -/
def shiftLoop : Nat → (Nat → K) → Nat → K
  | 0, v => v
  | i + 1, v => shiftLoop i fun j => if j = i + 1 then v i else v j

/-- Sets element 0 (flut/filter.hpp:23-24). -/
def setZero (v : Nat → K) (x : K) : Nat → K := fun j => if j = 0 then x else v j

/-- `operator()( x )` (flut/filter.hpp:12-26): the value returned and the filter afterwards. -/
def step (N : Nat) (f : Iir K) (x : K) : K × Iir K :=
  let y := sumLoop f N 0 (f.b0 * x)
  (y, { f with x := setZero (shiftLoop (N - 1) f.x) x, y := setZero (shiftLoop (N - 1) f.y) y })

/-- The outputs for a sequence of inputs. -/
def run (N : Nat) (f : Iir K) : List K → List K
  | [] => []
  | x :: xs => (step N f x).1 :: run N (step N f x).2 xs

/-- The filter after a sequence of inputs. -/
def after (N : Nat) (f : Iir K) : List K → Iir K
  | [] => f
  | x :: xs => after N (step N f x).2 xs

end Iir

/-! ## Delayers -/

/-- `delayer` (flut/math/delayer.hpp:7-35), with `data` as a function of the index. -/
structure Delayer (K : Type) where
  window : K
  time : K
  idx : Nat
  data : Nat → K

namespace Delayer

/-- The constructor (flut/math/delayer.hpp:10): only the first element of the array is given the initial value. -/
def new (N : Nat) (delay init : K) : Delayer K := ⟨delay / ((N : K) - 1), 0, 0, fun i => if i = 0 then init else 0⟩

/-- `add_sample` (flut/math/delayer.hpp:14-21). -/
def addSample (N : Nat) (d : Delayer K) (value dt : K) : Delayer K :=
  let time := d.time + dt
  if time + 0.5 * dt > d.window then
    let idx := (d.idx + 1) % N
    { d with time := time - d.window, idx := idx, data := fun i => if i = idx then value else d.data i }
  else { d with time := time }

/-- `delayed_value` (flut/math/delayer.hpp:23-26). -/
def delayedValue (N : Nat) (d : Delayer K) : K :=
  let w := d.time / d.window
  w * d.data ((d.idx + N + 2) % N) + (1 - w) * d.data ((d.idx + N + 1) % N)

/-- A sequence of samples, each with its time step. -/
def addAll (N : Nat) (d : Delayer K) (l : List (K × K)) : Delayer K := l.foldl (fun d s => d.addSample N s.1 s.2) d

end Delayer

/-- `smooth_delayer` (flut/math/delayer.hpp:37-69). -/
structure SmoothDelayer (K : Type) where
  window : K
  time : K
  inter : K
  idx : Nat
  data : Nat → K

namespace SmoothDelayer

/-- The constructor (flut/math/delayer.hpp:40). -/
def new (N : Nat) (delay init : K) : SmoothDelayer K := ⟨delay / ((N : K) - 0.5), 0, 0, 0, fun i => if i = 0 then init else 0⟩

/-- `add_sample` (flut/math/delayer.hpp:44-54). -/
def addSample (N : Nat) (d : SmoothDelayer K) (value dt : K) : SmoothDelayer K :=
  let time := d.time + dt
  if time ≥ d.window then
    let inter := d.inter + (d.window - time + dt) * value
    let idx := (d.idx + 1) % N
    { d with time := time - d.window, idx := idx, data := fun i => if i = idx then inter / d.window else d.data i,
             inter := (time - d.window) * value }
  else { d with time := time, inter := d.inter + value * dt }

/-- `delayed_value` (flut/math/delayer.hpp:56-59). -/
def delayedValue (N : Nat) (d : SmoothDelayer K) : K :=
  let w := d.time / d.window
  w * d.data ((d.idx + N + 2) % N) + (1 - w) * d.data ((d.idx + N + 1) % N)

/-- A sequence of samples, each with its time step. -/
def addAll (N : Nat) (d : SmoothDelayer K) (l : List (K × K)) : SmoothDelayer K := l.foldl (fun d s => d.addSample N s.1 s.2) d

end SmoothDelayer

end Flut
