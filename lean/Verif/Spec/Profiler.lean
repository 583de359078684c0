import Verif.Model.Profiler
import Mathlib.Algebra.BigOperators.Group.List.Basic
import Mathlib.Data.Int.Basic
import Mathlib.Algebra.Ring.Int.Defs

/-!
# Specification of profiling: invocations and their durations
-/

namespace Flut

/-- What happened so far: the calls that are open (name and time of entry, innermost first), the invocations that ended (call
path, innermost name first, and duration), the paths that were ever entered, and the time that each entering took. -/
structure CallSpec (N : Type) where
  stack : List (N × Int)
  done : List (List N × Int)
  entered : List (List N)
  over : List (List N × Int)

namespace CallSpec

variable {N : Type} [DecidableEq N]

/-- Nothing yet. -/
def init : CallSpec N := ⟨[], [], [], []⟩

/-- The path of the open calls. -/
def path (σ : CallSpec N) : List N := σ.stack.map Prod.fst

/-- Entering and leaving. Leaving without having entered is an error of the caller. -/
def step (σ : CallSpec N) : Profiler.Event N → Res (CallSpec N)
  | .start n t t' => .ok ⟨(n, t) :: σ.stack, σ.done, (n :: σ.path) :: σ.entered, (n :: σ.path, t' - t) :: σ.over⟩
  | .stop t => match σ.stack with
    | [] => .ub
    | (_, t0) :: rest => .ok ⟨rest, (σ.path, t - t0) :: σ.done, σ.entered, σ.over⟩
  | .report _ => .ok σ

/-- A history. -/
def run : List (Profiler.Event N) → CallSpec N → Res (CallSpec N)
  | [], σ => .ok σ
  | e :: es, σ => do
    let σ ← σ.step e
    run es σ

/-- The time spent in finished invocations of a path. -/
def totalOf (σ : CallSpec N) (p : List N) : Int := ((σ.done.filter (·.1 = p)).map Prod.snd).sum

/-- The time spent in finished calls made directly from a path. -/
def innerOf (σ : CallSpec N) (p : List N) : Int := ((σ.done.filter (fun d => d.1 ≠ [] ∧ d.1.tail = p)).map Prod.snd).sum

/-- The time spent in entering a path or anything called from it, directly or not. -/
def overUnder (σ : CallSpec N) (p : List N) : Int := ((σ.over.filter (fun d => p <:+ d.1)).map Prod.snd).sum

end CallSpec

/-- The call path of a section, innermost name first: that of the root is empty. -/
inductive HasPath {N : Type} (secs : List (Section N)) : Nat → List N → Prop where
  | root : HasPath secs 0 []
  | child {i j : Nat} {p : List N} {s : Section N} : secs[i]? = some s → s.parent = some j → HasPath secs j p →
      HasPath secs i (s.name :: p)

/-- The sections are those of the history. -/
structure ProfilerShows {N : Type} [DecidableEq N] (p : Profiler N) (σ : CallSpec N) : Prop where
  /-- parents come before their children; only the root has none -/
  tree : ∀ i s, p.sections[i]? = some s → s.id = i ∧ (s.parent = none ↔ i = 0) ∧ ∀ j, s.parent = some j → j < i
  /-- one section per path -/
  unique : ∀ i j q, HasPath p.sections i q → HasPath p.sections j q → i = j
  /-- and each has one -/
  has : ∀ i, i < p.sections.length → ∃ q, HasPath p.sections i q
  /-- the current section is that of the open calls -/
  current : HasPath p.sections p.current σ.path
  /-- sections are exactly the paths that were entered -/
  entered : ∀ q, q ≠ [] → (q ∈ σ.entered ↔ ∃ i, HasPath p.sections i q)
  /-- the total time of a section is the time spent in its finished invocations -/
  total : ∀ i q s, HasPath p.sections i q → p.sections[i]? = some s → q ≠ [] → s.total = σ.totalOf q
  /-- the exclusive time of a section is that without the calls it made -/
  exclusive : ∀ i q s, HasPath p.sections i q → p.sections[i]? = some s → q ≠ [] →
    p.exclusiveTime s = σ.totalOf q - σ.innerOf q

/-- The node of the report for a path: its value is the line with the times of the path, and it has one child for each path
entered directly from it, in the order of decreasing time. `tot` are the total times. -/
inductive ReportOf {N : Type} [DecidableEq N] (str : N → Str) (fmt : Profiler.Line → Str) (σ : CallSpec N)
    (tot : List N → Int) : List N → PN → Prop where
  | mk {q : List N} {a : Bool} {v : Str} {cs : List (Str × PN)} (names : List N) :
      v = fmt ⟨tot [], tot q, tot q - σ.innerOf q, σ.overUnder q⟩ →
      names.Nodup → (∀ n, n ∈ names ↔ n :: q ∈ σ.entered) → names.Pairwise (fun m n => tot (n :: q) ≤ tot (m :: q)) →
      cs.map Prod.fst = names.map str →
      (∀ (i : Nat) n k c, names[i]? = some n → cs[i]? = some (k, c) → ReportOf str fmt σ tot (n :: q) c) →
      ReportOf str fmt σ tot q (.mk a v cs)

/-- What `std::sort` promises. -/
def SortsByTime {N : Type} (sort : List (Section N) → List (Section N)) : Prop :=
  ∀ l, (sort l).Perm l ∧ (sort l).Pairwise fun a b => b.total ≤ a.total

end Flut
