import Verif.Model.Data
import Verif.Model.FloatData
import Verif.Model.Numeric

/-!
# Means, covariance and regression in floating-point arithmetic

`flut/buffer/data_algorithms.hpp` and `flut/math/linear_regression.hpp`, with `T` one of `float` and `double`.
(`Model/DataAlgorithms.lean` and `Model/Numeric.lean` have them in exact arithmetic.)
-/

namespace Flut

namespace FloatMath

variable (f : Fmt) {L : Type} [DecidableEq L]

/-- The inner loop of `compute_channel_means` (flut/buffer/data_algorithms.hpp:13-14), with `n` channels to go from `col`. -/
def meansCols (s : Storage Flt L) (row : Nat) : Nat → Nat → List Flt → Res (List Flt)
  | 0, _, m => .ok m
  | n + 1, col, m => do
    let v ← s.get row col
    let o ← vget m col
    let m ← vset m col (f.add o v)
    meansCols s row n (col + 1) m

/-- The outer loop (flut/buffer/data_algorithms.hpp:12), with `n` frames to go from `row`. -/
def meansRows (s : Storage Flt L) : Nat → Nat → List Flt → Res (List Flt)
  | 0, _, m => .ok m
  | n + 1, row, m => do
    let m ← meansCols f s row s.channels 0 m
    meansRows s n (row + 1) m

/-- `compute_channel_means` (flut/buffer/data_algorithms.hpp:7-19). The number of frames is converted to `T`. -/
def channelMeans (s : Storage Flt L) : Res (List Flt) := do
  let m ← meansRows f s s.frames 0 (List.replicate s.channels (.fin false 0))
  .ok (m.map fun v => f.div v (f.ofRat s.frames))

/-- The loop over the frames in `compute_covariance` (flut/buffer/data_algorithms.hpp:34-35), with `n` frames to go from `i`. -/
def covSum (s : Storage Flt L) (means : List Flt) (row col : Nat) : Nat → Nat → Flt → Res Flt
  | 0, _, v => .ok v
  | n + 1, i, v => do
    let a ← s.get i row
    let ma ← vget means row
    let b ← s.get i col
    let mb ← vget means col
    covSum s means row col n (i + 1) (f.add v (f.mul (f.sub a ma) (f.sub b mb)))

/-- The loop over the columns (flut/buffer/data_algorithms.hpp:31-37), with `n` to go from `col`. -/
def covCols (s : Storage Flt L) (means : List Flt) (row : Nat) : Nat → Nat → Table Flt L → Res (Table Flt L)
  | 0, _, t => .ok t
  | n + 1, col, t => do
    let v ← covSum f s means row col s.frames 0 (.fin false 0)
    let t ← t.put row col (f.div v (f.ofRat s.frames))
    covCols s means row n (col + 1) t

/-- The loop over the rows (flut/buffer/data_algorithms.hpp:29-38), with `n` to go from `row`. -/
def covRows (s : Storage Flt L) (means : List Flt) : Nat → Nat → Table Flt L → Res (Table Flt L)
  | 0, _, t => .ok t
  | n + 1, row, t => do
    let t ← covCols f s means row s.channels 0 t
    covRows s means n (row + 1) t

/-- `compute_covariance` (flut/buffer/data_algorithms.hpp:21-40). -/
def covariance (dl : L) (s : Storage Flt L) : Res (Table Flt L) := do
  let means ← channelMeans f s
  covRows f s means s.channels 0 (Table.new dl (.fin false 0) s.channels s.channels)

/-- The loop of `linear_regression` (flut/math/linear_regression.hpp:22-26): numerator and denominator. -/
def regressionLoop (avgx avgy : Flt) : List (Flt × Flt) → Flt → Flt → Flt × Flt
  | [], num, den => (num, den)
  | (x, y) :: l, num, den =>
    regressionLoop avgx avgy l (f.add num (f.mul (f.sub x avgx) (f.sub y avgy))) (f.add den (f.mul (f.sub x avgx) (f.sub x avgx)))

/-- `linear_regression` of two ranges (flut/math/linear_regression.hpp:10-29, 48-50); both have elements of type `T`. -/
def linearRegression (xs ys : List Flt) : Res (Linear Flt) :=
  if xs.length ≠ ys.length then .throws .assertion
  else
    let avgx := average f xs
    let avgy := average f ys
    let nd := regressionLoop f avgx avgy (xs.zip ys) (.fin false 0) (.fin false 0)
    let slope := f.div nd.1 nd.2
    .ok ⟨f.sub avgy (f.mul slope avgx), slope⟩

end FloatMath

end Flut
