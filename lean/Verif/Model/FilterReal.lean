import Verif.Model.Numeric
import Mathlib.Analysis.SpecialFunctions.Trigonometric.Basic
import Mathlib.Analysis.SpecialFunctions.Pow.Real

/-!
# The Butterworth filter over the reals

`make_lowpass_butterworth_2nd_order` (flut/filter.hpp:37-49), with exact real arithmetic.
-/

namespace Flut

/-- `make_lowpass_butterworth_2nd_order` (flut/filter.hpp:37-49). -/
noncomputable def butterworth (cutoffRatio : ℝ) : Iir ℝ :=
  let ita := 1 / Real.tan (Real.pi * cutoffRatio)
  let q := Real.sqrt 2
  let b0 := 1 / (1 + q * ita + ita * ita)
  Iir.new b0 (fun i => if i = 0 then 2 * b0 else b0)
    (fun i => if i = 0 then 2 * (ita * ita - 1) * b0 else -(1 - q * ita + ita * ita) * b0)

end Flut
