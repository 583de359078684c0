import Verif.Model.FloatDelayer

/-! # Smooth delayers in floating-point arithmetic -/

namespace Flut

namespace FloatMath

/-- The constructor of `smooth_delayer< float, N >` (flut/math/delayer.hpp:40). `N - 0.5f` is computed in `float`; only the first element of the array
is given the initial value. -/
def smoothNew (N : Nat) (delay init : Flt) : SmoothDelayer Flt :=
  ⟨Fmt.single.div delay (Fmt.single.sub (Fmt.single.ofRat (N : Nat)) (.fin false (1 / 2))), .fin false 0, .fin false 0, 0,
    fun i => if i = 0 then init else .fin false 0⟩

/-- `add_sample` (flut/math/delayer.hpp:44-54). -/
def smoothAdd (N : Nat) (d : SmoothDelayer Flt) (value dt : Flt) : SmoothDelayer Flt :=
  let time := Fmt.single.add d.time dt
  if d.window.le time then
    let inter := Fmt.single.add d.inter (Fmt.single.mul (Fmt.single.add (Fmt.single.sub d.window time) dt) value)
    let idx := (d.idx + 1) % N
    let rest := Fmt.single.sub time d.window
    { d with time := rest, idx := idx, data := fun i => if i = idx then Fmt.single.div inter d.window else d.data i,
             inter := Fmt.single.mul rest value }
  else { d with time := time, inter := Fmt.single.add d.inter (Fmt.single.mul value dt) }

/-- `delayed_value` (flut/math/delayer.hpp:56-59). -/
def smoothValue (N : Nat) (d : SmoothDelayer Flt) : Flt :=
  let w := Fmt.single.div d.time d.window
  Fmt.single.add (Fmt.single.mul w (d.data ((d.idx + N + 2) % N)))
    (Fmt.single.mul (Fmt.single.sub (.fin false 1) w) (d.data ((d.idx + N + 1) % N)))

/-- A sequence of samples, each with its time step. -/
def smoothAll (N : Nat) (d : SmoothDelayer Flt) (l : List (Flt × Flt)) : SmoothDelayer Flt := l.foldl (fun d s => smoothAdd N d s.1 s.2) d

end FloatMath

end Flut
