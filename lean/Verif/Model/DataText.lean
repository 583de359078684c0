import Verif.Model.Data
import Verif.Model.Rotation
import Mathlib.Algebra.Order.Floor.Defs

/-!
# Text output of `storage`, `table` and vectors; named writes; values between frames; sampling a function

`sh` stands for `str << value`, the text of one value. `std::endl` is a newline; writing to a stream succeeds.
-/

namespace Flut

/-! ### Text output -/

/-- One line of `operator<<` for a storage, /repo/flut/storage.hpp:151-154 and 157-160: `k` cells are left, from column
`ci` on, out of `n`. -/
def lineLoop (n : Nat) (cell : Nat → Res Str) : Nat → Nat → Res Str
  | 0, _ => .ok []
  | k + 1, ci => do
    let x ← cell ci
    let r ← lineLoop n cell k (ci + 1)
    .ok (x ++ (if ci = n - 1 then b!"\n" else b!"\t") ++ r)

namespace Storage

variable {α L : Type} [DecidableEq L]

/-- The loop over frames, /repo/flut/storage.hpp:156-161: `k` frames are left, from `fi` on. -/
def framesLoop (sh : α → Str) (s : Storage α L) : Nat → Nat → Res Str
  | 0, _ => .ok []
  | k + 1, fi => do
    let l ← lineLoop s.channels (fun ci => do let x ← s.get fi ci; .ok (sh x)) s.channels 0
    let r ← framesLoop sh s k (fi + 1)
    .ok (l ++ r)

/-- `operator<<` for a storage, /repo/flut/storage.hpp:149-163. -/
def text (shl : L → Str) (sh : α → Str) (s : Storage α L) : Res Str := do
  let h ← lineLoop s.channels (fun ci => do let l ← s.labels.get ci; .ok (shl l)) s.channels 0
  let r ← framesLoop sh s s.frames 0
  .ok (h ++ r)

end Storage

namespace Table

variable {α L : Type} [DecidableEq L]

/-- The loop over column labels, /repo/flut/table.hpp:73-74. -/
def labelsLoop (shl : L → Str) : List L → Str
  | [] => []
  | l :: ls => b!"\t" ++ shl l ++ labelsLoop shl ls

/-- The loop over the cells of a row, /repo/flut/table.hpp:80-81. -/
def cellsLoop (sh : α → Str) (t : Table α L) (row : Nat) : Nat → Nat → Res Str
  | 0, _ => .ok []
  | k + 1, col => do
    let x ← t.get row col
    let r ← cellsLoop sh t row k (col + 1)
    .ok (b!"\t" ++ sh x ++ r)

/-- The loop over rows, /repo/flut/table.hpp:77-83. -/
def rowsLoop (shl : L → Str) (sh : α → Str) (t : Table α L) : Nat → Nat → Res Str
  | 0, _ => .ok []
  | k + 1, row => do
    let l ← t.rows.get row
    let c ← cellsLoop sh t row t.cols.size 0
    let r ← rowsLoop shl sh t k (row + 1)
    .ok (shl l ++ c ++ b!"\n" ++ r)

/-- `operator<<` for a table, /repo/flut/table.hpp:70-86. -/
def text (shl : L → Str) (sh : α → Str) (t : Table α L) : Res Str := do
  let r ← rowsLoop shl sh t t.rows.size 0
  .ok (b!"Row" ++ labelsLoop shl t.cols.labels ++ b!"\n" ++ r)

end Table

/-- The loop of `operator<<` for a vector, /repo/flut/container_tools.hpp:93-96; `first` is `it == vec.begin()`. -/
def vecTextLoop {α : Type} (sh : α → Str) : Bool → List α → Str
  | _, [] => []
  | first, x :: xs => (if first then [] else b!"\t") ++ sh x ++ vecTextLoop sh false xs

/-- `operator<<` for a vector, /repo/flut/container_tools.hpp:91-98. -/
def vecText {α : Type} (sh : α → Str) (xs : List α) : Str := vecTextLoop sh true xs ++ b!"\n"

/-! ### Named writes -/

namespace Storage

/-- `write_storage` of a vector, /repo/flut/storage.hpp:132-136; `T()` is zero. -/
def writeVec3 {K : Type} [Zero K] (str : Str) (v : Vec3 K) (s : Storage K Str) : Res (Storage K Str) := do
  let s ← s.putLabel [] 0 (str ++ b!".x") v.x
  let s ← s.putLabel [] 0 (str ++ b!".y") v.y
  s.putLabel [] 0 (str ++ b!".z") v.z

/-- `write_storage` of a quaternion, /repo/flut/storage.hpp:139-144. -/
def writeQuat {K : Type} [Zero K] (str : Str) (q : Quat K) (s : Storage K Str) : Res (Storage K Str) := do
  let s ← s.putLabel [] 0 (str ++ b!".w") q.w
  let s ← s.putLabel [] 0 (str ++ b!".x") q.x
  let s ← s.putLabel [] 0 (str ++ b!".y") q.y
  s.putLabel [] 0 (str ++ b!".z") q.z

/-! ### Values between frames -/

/-- `get_interpolated_value`, /repo/flut/storage.hpp:90-97, in exact arithmetic. Converting a negative number to `index_t`
is undefined. The channel is not checked. -/
def interpolated {K L : Type} [DecidableEq L] [Field K] [LinearOrder K] [FloorRing K] (frameIdx : K) (channel : Nat)
    (s : Storage K L) : Res K :=
  let f : Int := ⌊frameIdx⌋
  let w := frameIdx - f
  if f < 0 then .ub
  else
    let frame0 := f.toNat
    if frame0 + 1 < s.frames then do
      let ofs := frame0 * s.channels + channel
      let a ← vget s.data ofs
      let b ← vget s.data (ofs + s.channels)
      .ok ((1 - w) * a + w * b)
    else .throws .assertion

end Storage

/-! ### Sampling a function -/

/-- The point and the value of sample `i` of `output_function`, /repo/flut/debug_tools.hpp:16-17. -/
def samplePoint {K : Type} [Field K] (min max : K) (f : K → K) (samples i : Nat) : K × K :=
  let x := min + i * (max - min) / ((samples : K) - 1)
  (x, f x)

/-- The loop of `output_function`, /repo/flut/debug_tools.hpp:14-19: `k` samples are left, from `i` on. -/
def samplesLoop {K : Type} [Field K] (min max : K) (f : K → K) (samples : Nat) : Nat → Nat → List (K × K)
  | 0, _ => []
  | k + 1, i => samplePoint min max f samples i :: samplesLoop min max f samples k (i + 1)

/-- `output_function`, /repo/flut/debug_tools.hpp:9-20: the pairs written, for at least two samples (the division is by
`samples - 1`). -/
def outputFunction {K : Type} [Field K] (min max : K) (f : K → K) (samples : Nat) : List (K × K) :=
  samplesLoop min max f samples samples 0

/-- The text that `output_function` writes, /repo/flut/debug_tools.hpp:18. -/
def outputText {K : Type} (sh : K → Str) : List (K × K) → Str
  | [] => []
  | (x, y) :: r => sh x ++ b!"\t" ++ sh y ++ b!"\n" ++ outputText sh r

end Flut
