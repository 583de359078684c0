import Verif.Model.Data
import Verif.Model.Strings
import Mathlib.Algebra.Field.Defs

/-!
# Means, covariance and pattern lists

`flut/buffer/data_algorithms.hpp` on the storages and tables of `Verif/Model/Data.lean`, with exact arithmetic, and
`flut/pattern_matcher.hpp`.
-/

namespace Flut

variable {K L : Type} [Field K] [DecidableEq K] [DecidableEq L]

/-- The inner loop of `compute_channel_means` (flut/buffer/data_algorithms.hpp:13-14), with `n` channels to go from `col`. -/
def meansCols (s : Storage K L) (row : Nat) : Nat → Nat → List K → Res (List K)
  | 0, _, m => .ok m
  | n + 1, col, m => do
    let v ← s.get row col
    let o ← vget m col
    let m ← vset m col (o + v)
    meansCols s row n (col + 1) m

/-- The outer loop (flut/buffer/data_algorithms.hpp:12), with `n` frames to go from `row`. -/
def meansRows (s : Storage K L) : Nat → Nat → List K → Res (List K)
  | 0, _, m => .ok m
  | n + 1, row, m => do
    let m ← meansCols s row s.channels 0 m
    meansRows s n (row + 1) m

/-- `compute_channel_means` (flut/buffer/data_algorithms.hpp:7-19). A mean of no frames has no value. -/
def channelMeans (s : Storage K L) : Res (List K) := do
  let m ← meansRows s s.frames 0 (List.replicate s.channels 0)
  if s.frames = 0 ∧ s.channels ≠ 0 then .ub
  else .ok (m.map fun v => v / (s.frames : K))

/-- The loop over the frames in `compute_covariance` (flut/buffer/data_algorithms.hpp:34-35), with `n` frames to go from `i`. -/
def covSum (s : Storage K L) (means : List K) (row col : Nat) : Nat → Nat → K → Res K
  | 0, _, v => .ok v
  | n + 1, i, v => do
    let a ← s.get i row
    let ma ← vget means row
    let b ← s.get i col
    let mb ← vget means col
    covSum s means row col n (i + 1) (v + (a - ma) * (b - mb))

/-- The loop over the columns (flut/buffer/data_algorithms.hpp:31-37), with `n` to go from `col`. -/
def covCols (s : Storage K L) (means : List K) (row : Nat) : Nat → Nat → Table K L → Res (Table K L)
  | 0, _, t => .ok t
  | n + 1, col, t => do
    let v ← covSum s means row col s.frames 0 0
    let t ← t.put row col (v / (s.frames : K))
    covCols s means row n (col + 1) t

/-- The loop over the rows (flut/buffer/data_algorithms.hpp:29-38), with `n` to go from `row`. -/
def covRows (s : Storage K L) (means : List K) : Nat → Nat → Table K L → Res (Table K L)
  | 0, _, t => .ok t
  | n + 1, row, t => do
    let t ← covCols s means row s.channels 0 t
    covRows s means n (row + 1) t

/-- `compute_covariance` (flut/buffer/data_algorithms.hpp:21-40). -/
def covariance (dl : L) (s : Storage K L) : Res (Table K L) := do
  let means ← channelMeans s
  covRows s means s.channels 0 (Table.new dl 0 s.channels s.channels)

/-! ## Pattern lists -/

/-- `pattern_matcher` (flut/pattern_matcher.hpp:9, 32). -/
structure PatternMatcher where
  patterns : List Str

/-- The constructors from text (flut/pattern_matcher.hpp:12-14). -/
def PatternMatcher.ofText (pattern delimiters : Str) : Res PatternMatcher := do
  let ps ← splitStr pattern delimiters
  .ok ⟨ps⟩

/-- The default constructor (flut/pattern_matcher.hpp:11). -/
def PatternMatcher.new : PatternMatcher := ⟨[]⟩

/-- The loop of `operator()` (flut/pattern_matcher.hpp:18-20), for a function `pattern_match( str, pattern )`. -/
def matchLoop (patternMatch : Str → Str → Res Bool) (str : Str) : List Str → Res Bool
  | [] => .ok false
  | p :: ps => do
    let m ← patternMatch str p
    if m then .ok true else matchLoop patternMatch str ps

/-- `operator()` (flut/pattern_matcher.hpp:17-21). -/
def PatternMatcher.call (patternMatch : Str → Str → Res Bool) (m : PatternMatcher) (str : Str) : Res Bool :=
  matchLoop patternMatch str m.patterns

end Flut
