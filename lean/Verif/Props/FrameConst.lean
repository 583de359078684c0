import Verif.Model.FrameConst
import Verif.Props.Data

/-!
# C34: reading a frame of a const `circular_frame_buffer`
-/

namespace Flut

/-- The const `operator()` never returns the value that the other one returns. -/
theorem C34_const_refuted {α L : Type} [DecidableEq L] (b : FrameBuf α L) (frame channel : Nat) (x : α) (h : b.get frame channel = .ok x) :
    b.constGet frame channel = .ub := by
  unfold FrameBuf.get at h
  unfold FrameBuf.constGet
  cases hs : b.slot frame channel with
  | ok i => rfl
  | ub => rfl
  | throws e => rw [hs] at h; cases h
  | diverges => rw [hs] at h; cases h

example : ∃ b : FrameBuf Nat Str, FrameBuf.runAll [.addFrame, .put 0 0 10] (FrameBuf.new b!"" 0 1 2) = .ok b ∧ b.get 0 0 = .ok 10 ∧
    b.constGet 0 0 = .ub := ⟨_, rfl, rfl, rfl⟩

end Flut
