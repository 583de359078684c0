import Verif.Model.Data

/-!
# The const `operator()` of `circular_frame_buffer`
-/

namespace Flut

namespace FrameBuf

variable {α L : Type} [DecidableEq L]

/-- The const `operator()`, /repo/flut/buffer/circular_frame_buffer.hpp:43: it reaches the element, and then ends without a
`return`, which is undefined. -/
def constGet (frame channel : Nat) (b : FrameBuf α L) : Res α := do
  let _ ← b.slot frame channel
  .ub

end FrameBuf

end Flut
