import Verif.Model.Threads
import Verif.Model.Profiler

/-!
# The profiler and the interrupt flag with several threads

`flut/system/profiler.cpp`, `flut/interruptible.cpp`. Readings of the clock are inputs, as in the model of the profiler without threads. The result of
`report` is left out here.
-/

namespace Flut.Threads

/-! ## `profiler` -/

/-- Where things are: `instance_thread_` (flut/system/profiler.cpp:8), and the members of `profiler::instance_` (flut/system/profiler.hpp:48-52). -/
inductive ProfPlace where
  | owner
  | state
deriving DecidableEq

/-- What is stored there: no thread or a thread, and the state, which is undefined after undefined behaviour. -/
inductive ProfCell (N : Type) where
  | owner (id : Option Nat)
  | state (p : Res (Profiler N))

/-- The memory is typed. -/
def ProfCell.asOwner {N : Type} : ProfCell N → Option Nat
  | .owner id => id
  | _ => none

/-- Typed access to the state. -/
def ProfCell.asState {N : Type} : ProfCell N → Res (Profiler N)
  | .state p => p
  | _ => .ub

/-- Calls: `start_section`, `end_section` and `report`, and `reset`. -/
inductive ProfCall (N : Type) where
  | event (e : Profiler.Event N)
  | reset (t : Int)

variable {N : Type} [DecidableEq N]

/-- A call by thread `me`: all but `reset` compare the thread first (flut/system/profiler.cpp:16-22,27,38,80). -/
def ProfCall.run (totalName : N) (me : Nat) : ProfCall N → Prog ProfPlace (ProfCell N) (Res Unit)
  | .event e => .read .owner fun v =>
    if v.asOwner = some me then .modify false .state (fun s => .state (s.asState >>= fun p => p.run e)) (.ret (.ok ())) else .ret (.throws .assertion)
  | .reset t => .modify false .state (fun _ => .state (.ok (Profiler.reset totalName t))) (.ret (.ok ()))

/-- One call after the other; exceptions are caught. -/
def profProg (totalName : N) (me : Nat) : List (ProfCall N) → Prog ProfPlace (ProfCell N) (List (Res Unit))
  | [] => .ret []
  | c :: cs => (c.run totalName me).bind fun a => (profProg totalName me cs).bind fun as => .ret (a :: as)

/-- The constructor of the profiler (flut/system/profiler.cpp:10-14), run by thread `main`: it sets the thread and the state. -/
def profConstruct (totalName : N) (main : Nat) (t : Int) : ProfPlace → ProfCell N
  | .owner => .owner (some main)
  | .state => .state (.ok (Profiler.reset totalName t))

/-- The constructor of `std::thread::id`: no thread. -/
def threadIdInit (m : ProfPlace → ProfCell N) : ProfPlace → ProfCell N
  | .owner => .owner none
  | .state => m .state

/-- Initialisation of the two static variables in the order of their definitions (flut/system/profiler.cpp:7-8): the profiler first, then the thread, unless
the thread got its initial value before the program started (`constantInit`), which depends on the standard library. -/
def profInit (constantInit : Bool) (totalName : N) (main : Nat) (t : Int) : ProfPlace → ProfCell N :=
  if constantInit then profConstruct totalName main t else threadIdInit (profConstruct totalName main t)

/-! ## `interruptible` -/

/-- Calls: `interrupt` and `test_interrupt_flag` (flut/interruptible.hpp:13-14). -/
inductive IntCall where
  | interrupt
  | test
deriving DecidableEq

/-- The accesses of a call; there is one flag (flut/interruptible.hpp:17, flut/interruptible.cpp:11-19). -/
def IntCall.run : IntCall → Prog Unit Bool (Option Bool)
  | .interrupt => .write () true (.ret none)
  | .test => .read () fun b => .ret (some b)

/-- One call after the other, with their answers. -/
def intProg : List IntCall → Prog Unit Bool (List (Option Bool))
  | [] => .ret []
  | c :: cs => c.run.bind fun a => (intProg cs).bind fun as => .ret (a :: as)

/-- The constructor (flut/interruptible.cpp:5-6). -/
def intInit : Unit → Bool := fun _ => false

end Flut.Threads
