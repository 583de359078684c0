import Verif.Spec.Float
import Verif.Model.Numeric

/-! # What a smooth delayer in floating-point arithmetic has to agree with -/

namespace Flut.Spec

/-- How far a stored average may be from the exact one, for a window `W`, samples up to `M` and steps not shorter than a part `m` of the window. -/
def averageError (M m W : ℚ) : ℚ := (m + 3) * (6 * M / 2 ^ 24 + 2 ^ (-149 : Int) / W) + 2 ^ (-149 : Int)

/-- How far the output may be from the exact one: the error of the averages, and that of the interpolation between them. -/
def outputError (M m W : ℚ) : ℚ := averageError M m W + (11 * (M + averageError M m W) / 2 ^ 24 + 2 * 2 ^ (-149 : Int))

/-- A smooth delayer in single precision beside one with exact arithmetic: window, clock and place are the same, the averages are near each other. -/
structure SmoothNear (M m : ℚ) (d : SmoothDelayer Flt) (e : SmoothDelayer ℚ) : Prop where
  window : Stands .single d.window e.window
  time : Stands .single d.time e.time
  inside : 0 ≤ e.time ∧ e.time ≤ e.window
  idx : d.idx = e.idx
  data : ∀ i, ∃ a, Stands .single (d.data i) a ∧ |a - e.data i| ≤ averageError M m e.window ∧ |e.data i| ≤ M

/-- The window is not zero, a window has at most 16776 steps, and nothing overflows. -/
structure SmoothFits (M m W : ℚ) : Prop where
  window : 0 < W
  bound : 0 ≤ M
  part : 0 ≤ m
  parts : (m + 1) * 1000 ≤ 2 ^ 24
  windowMax : 3 * W ≤ Fmt.single.maxVal
  boundMax : 5 * M ≤ Fmt.single.maxVal
  sumMax : 5 * (M * W) ≤ Fmt.single.maxVal

/-- A sample given in single precision, and the numbers it stands for: the sample is at most `M`, the step is at most a window `W` and at least a part
`m` of it. -/
def SampleStands (M m W : ℚ) (s : Flt × Flt) (q : ℚ × ℚ) : Prop :=
  Stands .single s.1 q.1 ∧ Stands .single s.2 q.2 ∧ |q.1| ≤ M ∧ 0 ≤ q.2 ∧ q.2 ≤ W ∧ W ≤ m * q.2

/-- The same sample with a step that is off by two units of the window at most. -/
def StepNear (W : ℚ) (p q : ℚ × ℚ) : Prop := p.1 = q.1 ∧ 0 ≤ p.2 ∧ |p.2 - q.2| ≤ 2 * W / 2 ^ 24

end Flut.Spec
