import Verif.Model.ProfilerThreads
import Verif.Spec.Threads
import Verif.Spec.LogThreads

/-! # Specification of the profiler and the interrupt flag with several threads -/

namespace Flut.Threads

variable {N : Type} [DecidableEq N]

/-- `start_section`, `end_section` or `report`. -/
def ProfCall.isEvent : ProfCall N → Bool
  | .event _ => true
  | .reset _ => false

/-- What calls do to the profiler, by the model without threads. -/
def ProfCall.sequential (totalName : N) (s : Res (Profiler N)) : ProfCall N → Res (Profiler N)
  | .event e => s >>= fun p => p.run e
  | .reset t => .ok (Profiler.reset totalName t)

/-- What `test_interrupt_flag` should return at each call, if `b` tells whether there was an interruption before. -/
def intAnswers : Bool → List IntCall → List (Option Bool)
  | _, [] => []
  | _, .interrupt :: cs => none :: intAnswers true cs
  | b, .test :: cs => some b :: intAnswers b cs

end Flut.Threads
