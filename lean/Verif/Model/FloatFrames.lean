import Verif.Model.Data
import Verif.Model.FloatData

/-!
# Values between two frames of a storage, in floating-point arithmetic

`T` is `float` or `double`. (`Model/DataText.lean` has the same function in exact arithmetic.)
-/

namespace Flut

namespace FloatMath

variable (f : Fmt) {L : Type} [DecidableEq L]

/-- `storage::get_interpolated_value` (flut/storage.hpp:90-97). `floor` is exact. The conversion to `index_t` is undefined for
values that do not fit, so for everything below zero; what is left is minus zero or its magnitude. The channel is not checked. -/
def interpolatedFrame (frameIdx : Flt) (channel : Nat) (s : Storage Flt L) : Res Flt :=
  match frameIdx with
  | .fin sg m =>
    if sg = true ∧ m ≠ 0 then .ub
    else if ⌊m⌋ ≥ 2 ^ 64 then .ub
    else
      let w := f.sub (.fin sg m) (.fin sg ⌊m⌋)
      let frame0 := ⌊m⌋.toNat
      if (frame0 + 1) % 2 ^ 64 < s.frames then do
        let ofs := frame0 * s.channels + channel
        let a ← vget s.data ofs
        let b ← vget s.data (ofs + s.channels)
        .ok (lerp f w a b)
      else .throws .assertion
  | _ => .ub

end FloatMath

end Flut
