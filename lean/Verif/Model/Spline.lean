import Verif.Basic
import Mathlib.Analysis.SpecialFunctions.Pow.Real
import Mathlib.Analysis.Normed.Module.Basic

/-!
# `flut/math/catmull_rom.hpp`

Points are vectors over `ℝ`, `distance` is the distance of the norm, arithmetic is exact. The class `catmull_rom` at the end of the
header (lines 61-85) has a syntax error and is not modelled; the definitions before it are taken on their own.
-/

namespace Flut

noncomputable section

variable {P : Type} [NormedAddCommGroup P] [NormedSpace ℝ P]

/-- The members of `catmull_rom_segment` (flut/math/catmull_rom.hpp:18). -/
structure CatmullRom (P : Type) where
  a : P
  b : P
  c : P
  d : P

namespace CatmullRom

/-- The constructor (flut/math/catmull_rom.hpp:8-13). -/
def ofPoints (p0 p1 p2 p3 : P) : CatmullRom P where
  a := (2 : ℝ) • p1
  b := -p0 + p2
  c := (2 : ℝ) • p0 - (5 : ℝ) • p1 + (4 : ℝ) • p2 - p3
  d := -p0 + (3 : ℝ) • p1 - (3 : ℝ) • p2 + p3

/-- `operator()( t )` (flut/math/catmull_rom.hpp:15). -/
def eval (s : CatmullRom P) (t : ℝ) : P := (0.5 : ℝ) • (s.a + t • s.b + t • t • s.c + t • t • t • s.d)

end CatmullRom

/-- The members of `catmull_rom_segment_alpha` (flut/math/catmull_rom.hpp:44-45). -/
structure CatmullRomAlpha (P : Type) where
  t0 : ℝ
  t1 : ℝ
  t2 : ℝ
  t3 : ℝ
  p0 : P
  p1 : P
  p2 : P
  p3 : P

namespace CatmullRomAlpha

/-- The constructor (flut/math/catmull_rom.hpp:24-30). -/
def ofPoints (p0 p1 p2 p3 : P) (alpha : ℝ) : CatmullRomAlpha P :=
  let t1 := dist p0 p1 ^ alpha
  let t2 := t1 + dist p1 p2 ^ alpha
  let t3 := t2 + dist p2 p3 ^ alpha
  { t0 := 0, t1 := t1, t2 := t2, t3 := t3, p0 := p0, p1 := p1, p2 := p2, p3 := p3 }

open Classical in
/-- `operator()( t )` (flut/math/catmull_rom.hpp:32-41). Division by zero, which gives infinities or no numbers there, is
undefined here. -/
def eval (s : CatmullRomAlpha P) (t : ℝ) : Res P :=
  if s.t1 - s.t0 = 0 ∨ s.t2 - s.t1 = 0 ∨ s.t3 - s.t2 = 0 ∨ s.t2 - s.t0 = 0 ∨ s.t3 - s.t1 = 0 then .ub
  else
    let t := s.t1 + t * (s.t2 - s.t1)
    let A1 := ((s.t1 - t) / (s.t1 - s.t0)) • s.p0 + ((t - s.t0) / (s.t1 - s.t0)) • s.p1
    let A2 := ((s.t2 - t) / (s.t2 - s.t1)) • s.p1 + ((t - s.t1) / (s.t2 - s.t1)) • s.p2
    let A3 := ((s.t3 - t) / (s.t3 - s.t2)) • s.p2 + ((t - s.t2) / (s.t3 - s.t2)) • s.p3
    let B1 := ((s.t2 - t) / (s.t2 - s.t0)) • A1 + ((t - s.t0) / (s.t2 - s.t0)) • A2
    let B2 := ((s.t3 - t) / (s.t3 - s.t1)) • A2 + ((t - s.t1) / (s.t3 - s.t1)) • A3
    .ok (((s.t2 - t) / (s.t2 - s.t1)) • B1 + ((t - s.t1) / (s.t2 - s.t1)) • B2)

end CatmullRomAlpha

/-- The loop of `compute_spline_length` (flut/math/catmull_rom.hpp:52-57), after `i - 1` steps, with `n` more to go. -/
def splineLengthLoop (spline : ℝ → P) (t0 t1 : ℝ) (steps : Nat) : Nat → Nat → P → ℝ → ℝ
  | 0, _, _, d => d
  | n + 1, i, pos, d =>
    let newPos := spline (t0 + (t1 - t0) * i / steps)
    splineLengthLoop spline t0 t1 steps n (i + 1) newPos (d + dist pos newPos)

/-- `compute_spline_length` (flut/math/catmull_rom.hpp:48-59) for a number of steps that is not negative. -/
def splineLength (spline : ℝ → P) (t0 t1 : ℝ) (steps : Nat) : ℝ := splineLengthLoop spline t0 t1 steps steps 1 (spline t0) 0

end

end Flut
