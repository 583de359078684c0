import Verif.Model.FloatData
import Verif.Model.Numeric

/-! # Delayers in floating-point arithmetic -/

namespace Flut

namespace FloatMath

/-- The constructor of `delayer< float, N >` (flut/math/delayer.hpp:10). `N - 1` is converted to `float`; only the first element of the array is
given the initial value. -/
def delayerNew (N : Nat) (delay init : Flt) : Delayer Flt :=
  ⟨Fmt.single.div delay (Fmt.single.ofRat (N - 1 : Nat)), .fin false 0, 0, fun i => if i = 0 then init else .fin false 0⟩

/-- `add_sample` (flut/math/delayer.hpp:14-21). -/
def delayerAdd (N : Nat) (d : Delayer Flt) (value dt : Flt) : Delayer Flt :=
  let time := Fmt.single.add d.time dt
  if d.window.lt (Fmt.single.add time (Fmt.single.mul (.fin false (1 / 2)) dt)) then
    let idx := (d.idx + 1) % N
    { d with time := Fmt.single.sub time d.window, idx := idx, data := fun i => if i = idx then value else d.data i }
  else { d with time := time }

/-- `delayed_value` (flut/math/delayer.hpp:23-26). -/
def delayerValue (N : Nat) (d : Delayer Flt) : Flt :=
  let w := Fmt.single.div d.time d.window
  Fmt.single.add (Fmt.single.mul w (d.data ((d.idx + N + 2) % N)))
    (Fmt.single.mul (Fmt.single.sub (.fin false 1) w) (d.data ((d.idx + N + 1) % N)))

/-- A sequence of samples, each with its time step. -/
def delayerAll (N : Nat) (d : Delayer Flt) (l : List (Flt × Flt)) : Delayer Flt := l.foldl (fun d s => delayerAdd N d s.1 s.2) d

end FloatMath

end Flut
