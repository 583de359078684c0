import Verif.Basic
import Mathlib.Data.Rat.Defs

/-!
# `flut/timer.hpp` and `flut/timer.cpp`

Time points and durations count nanoseconds in 64-bit integers, as the clocks of the standard library do; what a clock shows is
a parameter.
-/

namespace Flut

/-- A 64-bit integer; overflow is undefined. -/
def int64 (x : Int) : Res Int := if -2 ^ 63 ≤ x ∧ x < 2 ^ 63 then .ok x else .ub

/-- `timer` (flut/timer.hpp:29-51): the reading of the clock at construction or `reset()` (lines 37-38). -/
structure Timer where
  epoch : Int

namespace Timer

/-- `elapsed()` (flut/timer.hpp:50), `nanoseconds()` (line 45) and `ticks()` (line 46), when the clock shows `now`. -/
def nanoseconds (t : Timer) (now : Int) : Res Int := int64 (now - t.epoch)

/-- `microseconds()` (flut/timer.hpp:44): `duration_cast` truncates. -/
def microseconds (t : Timer) (now : Int) : Res Int := do let d ← t.nanoseconds now; .ok (Int.tdiv d 1000)

/-- `milliseconds()` (flut/timer.hpp:43). -/
def milliseconds (t : Timer) (now : Int) : Res Int := do let d ← t.nanoseconds now; .ok (Int.tdiv d 1000000)

/-- `seconds()` (flut/timer.hpp:40), in exact arithmetic. -/
def seconds (t : Timer) (now : Int) : Res Rat := do let d ← t.nanoseconds now; .ok ((d : Rat) / 1000000000)

/-- `minutes()` (flut/timer.hpp:41), in exact arithmetic. -/
def minutes (t : Timer) (now : Int) : Res Rat := do let d ← t.nanoseconds now; .ok ((d : Rat) / 60000000000)

/-- `hours()` (flut/timer.hpp:42), in exact arithmetic. -/
def hours (t : Timer) (now : Int) : Res Rat := do let d ← t.nanoseconds now; .ok ((d : Rat) / 3600000000000)

end Timer

/-- `windows_performance_counter_clock::now()` (flut/timer.cpp:28-32): `count` is what the counter shows less what it showed at the
start of the program, `freq` its frequency. -/
def counterNow (count freq : Int) : Res Int := do
  let x ← int64 (count * 1000000000)
  if freq = 0 then .ub else .ok (Int.tdiv x freq)

end Flut
