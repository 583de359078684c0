import Verif.Model.PropNode

/-!
# `flut/system/profiler.cpp`, `flut/stopwatch.cpp`

The clock is an input: each call is given the values that `now()` returns during it. Times are integers (nanoseconds;
overflow of `long long` is not modelled).
-/

namespace Flut

/-- `profiler::section` (flut/system/profiler.hpp:17-26). Names are `const char*` and compared as pointers
(flut/system/profiler.cpp:53), so `N` stands for pointers. `parent = none` is `no_index`; `epoch = none` is an
uninitialised member. -/
structure Section (N : Type) where
  name : N
  id : Nat
  parent : Option Nat
  total : Int
  overhead : Int
  epoch : Option Int
deriving DecidableEq

/-- `profiler` (flut/system/profiler.hpp:48-52). `current_section_` points into the vector; it is an index here, because every
`emplace_back` is followed by setting the pointer anew (flut/system/profiler.cpp:20,28). `duration_of_now` is always
zero (flut/system/profiler.cpp:18). -/
structure Profiler (N : Type) where
  sections : List (Section N)
  current : Nat
deriving DecidableEq

namespace Profiler

variable {N : Type} [DecidableEq N]

/-- `reset` (flut/system/profiler.cpp:16-22); `t` is the clock. -/
def reset (totalName : N) (t : Int) : Profiler N := ⟨[⟨totalName, 0, none, 0, 0, some t⟩], 0⟩

/-- Index of the first match from position `i` on. -/
def findFrom (name : N) (parent : Nat) : Nat → List (Section N) → Option Nat
  | _, [] => none
  | i, s :: ss => if s.name = name ∧ s.parent = some parent then some i else findFrom name parent (i + 1) ss

/-- `find_section( name, parent_id )` (flut/system/profiler.cpp:51-55): the search begins behind the parent. -/
def find (p : Profiler N) (name : N) (parent : Nat) : Option Nat :=
  findFrom name parent (parent + 1) (p.sections.drop (parent + 1))

/-- `acquire_section` and `add_section` (flut/system/profiler.cpp:57-68): the index of the section. -/
def acquire (p : Profiler N) (name : N) (parent : Nat) : Nat × Profiler N :=
  match p.find name parent with
  | some i => (i, p)
  | none => (p.sections.length,
      { p with sections := p.sections ++ [⟨name, p.sections.length, some parent, 0, 0, none⟩] })

/-- `start_section` (flut/system/profiler.cpp:24-33): `t` and `t'` are the two readings of the clock. -/
def start (p : Profiler N) (name : N) (t t' : Int) : Res (Profiler N) :=
  match p.sections[p.current]? with
  | none => .ub
  | some cur =>
    let (i, p) := p.acquire name cur.id
    .ok { sections := p.sections.modify i fun s => { s with epoch := some t, overhead := s.overhead + (t' - t) },
          current := i }

/-- `end_section` (flut/system/profiler.cpp:35-43): without a parent, `sections_[ no_index ]` is out of range. -/
def end' (p : Profiler N) (t : Int) : Res (Profiler N) :=
  match p.sections[p.current]? with
  | none => .ub
  | some cur =>
    match cur.parent, cur.epoch with
    | some par, some e =>
      if par < p.sections.length then
        .ok { sections := p.sections.modify p.current fun s => { s with total := s.total + (t - e) },
              current := par }
      else .ub
    | _, _ => .ub

/-- `exclusive_time` (flut/system/profiler.cpp:105-112). -/
def exclusiveTime (p : Profiler N) (s : Section N) : Int :=
  p.sections.foldl (fun t cs => if cs.parent = some s.id then t - cs.total else t) s.total

/-- `get_children` (flut/system/profiler.cpp:70-76): the sections instead of pointers to them. -/
def childrenOf (p : Profiler N) (id : Nat) : List (Section N) := p.sections.filter (·.parent = some id)

/-- `total_overhead` (flut/system/profiler.cpp:114-121); the first argument bounds the depth of the recursion. -/
def totalOverheadN (p : Profiler N) : Nat → Section N → Res Int
  | 0, _ => .diverges
  | k + 1, s => p.sections.foldlM (fun t cs =>
      if cs.parent = some s.id then do
        let o ← p.totalOverheadN k cs
        .ok (t + o)
      else .ok t) s.overhead

/-- The numbers that a line of the report is computed from (flut/system/profiler.cpp:89-95): the total time of the root, and
the total time, exclusive time and overhead of the section. Divisions and formatting are left out. -/
structure Line where
  root : Int
  total : Int
  exclusive : Int
  overhead : Int
deriving DecidableEq

/-- `pn[ key ]` (flut/prop_node.hpp:178) with an action on the node that it refers to. -/
def atKey (key : Str) (f : PN → Res PN) (pn : PN) : Res PN :=
  match pn.getOrAddChild key with
  | (i, .mk a v cs) => match cs[i]? with
    | none => .ub
    | some (_, c) => do
      let c ← f c
      .ok (.mk a v (PN.modifyAt (fun _ => c) i cs))

/-- `report_section` (flut/system/profiler.cpp:87-103): `str` is the text that a name points to, `fmt` the format of a line
and `sort` is `std::sort` with the comparison of total times. The first argument bounds the depth of the recursion. -/
def reportN (p : Profiler N) (str : N → Str) (fmt : Line → Str) (sort : List (Section N) → List (Section N)) (root : Int) :
    Nat → Section N → PN → Res PN
  | 0, _, _ => .diverges
  | k + 1, s, pn => do
    let over ← p.totalOverheadN (p.sections.length + 1) s
    let pn ← atKey (str s.name) (fun n => .ok (n.assign (.leaf (fmt ⟨root, s.total, p.exclusiveTime s, over⟩)))) pn
    (sort (p.childrenOf s.id)).foldlM (fun pn c => atKey (str s.name) (p.reportN str fmt sort root k c) pn) pn

/-- The first step of `report` (flut/system/profiler.cpp:81): the total time of the root is set. -/
def closeRoot (p : Profiler N) (t : Int) : Res (Profiler N) :=
  match p.sections with
  | [] => .ub
  | r :: rest => match r.epoch with
    | none => .ub
    | some e => .ok { p with sections := { r with total := t - e } :: rest }

/-- `report` (flut/system/profiler.cpp:78-85): the tree and the profiler afterwards. -/
def report (p : Profiler N) (str : N → Str) (fmt : Line → Str) (sort : List (Section N) → List (Section N)) (t : Int) :
    Res (PN × Profiler N) := do
  let p ← p.closeRoot t
  match p.sections with
  | [] => .ub
  | r :: _ => do
    let pn ← p.reportN str fmt sort r.total (p.sections.length + 1) r .nil
    .ok (pn, p)

/-- The events of a run. -/
inductive Event (N : Type) where
  | start (name : N) (t t' : Int)
  | stop (t : Int)
  | report (t : Int)

/-- One event; of a report only what it does to the profiler. -/
def run (p : Profiler N) : Event N → Res (Profiler N)
  | .start n t t' => p.start n t t'
  | .stop t => p.end' t
  | .report t => p.closeRoot t

/-- A history. -/
def runAll : List (Event N) → Profiler N → Res (Profiler N)
  | [], p => .ok p
  | e :: es, p => do
    let p ← p.run e
    runAll es p

end Profiler

/-! ## `stopwatch` -/

/-- `stopwatch` (flut/stopwatch.hpp:33-36). Seconds are integers here (the sums are the same in any unit). -/
structure Stopwatch where
  epoch : Int
  measures : List (Str × Int) := []
  internal : Int := 0

namespace Stopwatch

/-- `stopwatch::stopwatch` (flut/stopwatch.hpp:20,24). -/
def new (t : Int) : Stopwatch := { epoch := t }

/-- `start_first_measure` (flut/stopwatch.hpp:24). -/
def startFirst (w : Stopwatch) (t : Int) : Stopwatch := { w with epoch := t }

/-- Finding the entry and adding to it, or appending one (flut/stopwatch.cpp:8-11). -/
def addTo (name : Str) (d : Int) : List (Str × Int) → List (Str × Int)
  | [] => [(name, d)]
  | (n, x) :: ms => if n = name then (n, x + d) :: ms else (n, x) :: addTo name d ms

/-- `add_measure` (flut/stopwatch.cpp:5-14): `now` and `t'` are the two readings of the clock. -/
def addMeasure (w : Stopwatch) (name : Str) (now t' : Int) : Stopwatch :=
  { epoch := t', measures := addTo name (now - w.epoch) w.measures, internal := w.internal + (t' - now) }

/-- `get_report` (flut/stopwatch.cpp:16-28), without the conversion of numbers to text. -/
def report (w : Stopwatch) : List (Str × Int) := w.measures ++ [(b!"internal", w.internal)]

/-- A sequence of measurements. -/
def addAll (ms : List (Str × Int × Int)) (w : Stopwatch) : Stopwatch :=
  ms.foldl (fun w m => w.addMeasure m.1 m.2.1 m.2.2) w

end Stopwatch

end Flut
