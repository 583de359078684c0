import Verif.Proofs.Profiler
import Verif.Props.Data
import Mathlib.Tactic.Linarith
import Mathlib.Tactic.Push

/-!
# C44, C45: profiler and stopwatch
-/

namespace Flut

/-! ## C44 -/

/-- For every history of `start_section`, `end_section` and `report`: the sections form a tree with one section for each call path that
was entered, the current section is that of the open calls, the total time of a section is the sum of the durations of its
finished invocations, and its exclusive time is that without the calls made from it. The profiler is undefined exactly
if there is an end without a start. -/
theorem C44_profiler {N : Type} [DecidableEq N] (totalName : N) (t : Int) (es : List (Profiler.Event N)) :
    Agree ProfilerShows (Profiler.runAll es (Profiler.reset totalName t)) (CallSpec.run es CallSpec.init) :=
  (Profiler.rep_runAll totalName t es).mono fun _ _ ⟨_, r⟩ => r.shows

/-- Balanced histories. -/
inductive Balanced {N : Type} : List (Profiler.Event N) → Prop where
  | nil : Balanced []
  | call (n : N) (t t' u : Int) {inner rest : List (Profiler.Event N)} : Balanced inner → Balanced rest →
      Balanced (.start n t t' :: inner ++ .stop u :: rest)

theorem CallSpec.run_append {N : Type} [DecidableEq N] (a b : List (Profiler.Event N)) (σ : CallSpec N) :
    CallSpec.run (a ++ b) σ = (CallSpec.run a σ >>= CallSpec.run b) := by
  induction a generalizing σ with
  | nil => rfl
  | cons e a ih =>
    simp only [List.cons_append, CallSpec.run]
    cases σ.step e with
    | ok x => simp only [Res.bind_ok, ih]
    | throws => rfl
    | ub => rfl
    | diverges => rfl

theorem CallSpec.balanced {N : Type} [DecidableEq N] (es : List (Profiler.Event N)) (h : Balanced es) (σ : CallSpec N) :
    ∃ σ', CallSpec.run es σ = .ok σ' ∧ σ'.stack = σ.stack := by
  induction h generalizing σ with
  | nil => exact ⟨σ, rfl, rfl⟩
  | @call n t t' u inner rest _ _ ih1 ih2 =>
    obtain ⟨σ1, h1, h2⟩ := ih1 ⟨(n, t) :: σ.stack, σ.done, (n :: σ.path) :: σ.entered, (n :: σ.path, t' - t) :: σ.over⟩
    obtain ⟨σ2, h3, h4⟩ := ih2 ⟨σ.stack, (σ1.path, u - t) :: σ1.done, σ1.entered, σ1.over⟩
    refine ⟨σ2, ?_, h4⟩
    have : Profiler.Event.start n t t' :: inner ++ .stop u :: rest
        = .start n t t' :: (inner ++ .stop u :: rest) := rfl
    rw [this]
    simp only [CallSpec.run, CallSpec.step, Res.bind_ok]
    rw [CallSpec.run_append, h1]
    simp only [Res.bind_ok, CallSpec.run, CallSpec.step, h2]
    exact h3

/-- After a properly nested history the profiler is back in the section in which it was before, whatever happened earlier. -/
theorem C44_balanced {N : Type} [DecidableEq N] (totalName : N) (t : Int) (before es : List (Profiler.Event N))
    (h : Balanced es) (p : Profiler N) (hp : Profiler.runAll before (Profiler.reset totalName t) = .ok p) :
    ∃ p', Profiler.runAll es p = .ok p' ∧ p'.current = p.current := by
  have h0 := Profiler.rep_runAll totalName t before
  rw [hp] at h0
  cases hs : CallSpec.run before (CallSpec.init : CallSpec N) with
  | throws e => rw [hs] at h0; exact h0.elim
  | ub => rw [hs] at h0; exact h0.elim
  | diverges => rw [hs] at h0; exact h0.elim
  | ok σ =>
    rw [hs] at h0
    obtain ⟨ps, r⟩ : ∃ ps, Profiler.Rep p σ ps := h0
    -- the specification of a balanced history, followed through the profiler
    have key : ∀ (es : List (Profiler.Event N)), Balanced es → ∀ (p : Profiler N) (σ : CallSpec N) (ps : List (List N)),
        Profiler.Rep p σ ps → ∃ p' σ' ps', Profiler.runAll es p = .ok p' ∧ Profiler.Rep p' σ' ps' ∧
          σ'.stack = σ.stack ∧ p'.current = p.current := by
      have app : ∀ (a b : List (Profiler.Event N)) (p : Profiler N),
          Profiler.runAll (a ++ b) p = (Profiler.runAll a p >>= Profiler.runAll b) := by
        intro a b
        induction a with
        | nil => intro p; rfl
        | cons e a ih =>
          intro p
          simp only [List.cons_append, Profiler.runAll]
          cases p.run e with
          | ok x => simp only [Res.bind_ok, ih]
          | throws => rfl
          | ub => rfl
          | diverges => rfl
      intro es h
      induction h with
      | nil => exact fun p σ ps r => ⟨p, σ, ps, rfl, r, rfl, rfl⟩
      | @call n t t' u inner rest _ _ ih1 ih2 =>
        intro p σ ps r
        obtain ⟨p1, ps1, e1, r1⟩ := Profiler.rep_start r n t t'
        obtain ⟨p2, σ2, ps2, e2, r2, s2, c2⟩ := ih1 p1 _ ps1 r1
        obtain ⟨p3, e3, r3⟩ := Profiler.rep_end r2 u n t σ.stack s2
        obtain ⟨p4, σ4, ps4, e4, r4, s4, c4⟩ := ih2 p3 _ ps2 r3
        have hcur : p3.current = p.current := by
          -- the parent of the section that was entered
          unfold Profiler.end' at e3
          split at e3
          · cases e3
          · rename_i cur hcur
            split at e3
            · rename_i par e hpar he
              split at e3
              · injection e3 with e3
                subst e3
                have hp1 : p1.sections[p1.current]?.bind Section.parent = some p.current := by
                  have hcp : p.current < p.sections.length := by
                    rw [← r.len]; exact (List.getElem?_eq_some_iff.1 r.cur).1
                  have hid := (r.node _ _ (List.getElem?_eq_getElem hcp)).1
                  have e1' := e1
                  unfold Profiler.start Profiler.acquire at e1'
                  rw [List.getElem?_eq_getElem hcp] at e1'
                  simp only [hid] at e1'
                  cases hf : p.find n p.current with
                  | some i =>
                    rw [hf] at e1'
                    simp only at e1'
                    injection e1' with e1'
                    subst e1'
                    obtain ⟨g1, s, g2, _, g4⟩ := Profiler.findFrom_some hf
                    rw [List.getElem?_drop, show p.current + 1 + (i - (p.current + 1)) = i by omega] at g2
                    simp only [Profiler.getElem?_modify_eq, g2, Option.map_some, if_true, Option.bind_some]
                    exact g4
                  | none =>
                    rw [hf] at e1'
                    simp only at e1'
                    injection e1' with e1'
                    subst e1'
                    simp [Profiler.getElem?_modify_eq]
                -- later events do not change it: the path is the same
                have hpath2 := r2.cur
                have hpath1 := r1.cur
                have hlt : p2.current < p2.sections.length := (List.getElem?_eq_some_iff.1 hcur).1
                obtain ⟨j, q, _, h6, h7, h8⟩ := (r2.node _ _ hcur).2 (by
                  rcases Nat.eq_zero_or_pos p2.current with h0 | h0
                  · rw [h0] at hcur
                    rw [r2.rootSec _ hcur] at hpar; cases hpar
                  · exact h0)
                have hpar' : par = j := by rw [hpar] at h6; injection h6
                subst hpar'
                -- the section entered is the same one, and its parent is unchanged by what follows
                have keep : ∀ (es : List (Profiler.Event N)) (a b : Profiler N), Profiler.runAll es a = .ok b →
                    ∀ (i : Nat) s, a.sections[i]? = some s → ∃ s', b.sections[i]? = some s' ∧ s'.parent = s.parent := by
                  intro es
                  induction es with
                  | nil =>
                    intro a b hab i s hs
                    simp only [Profiler.runAll] at hab
                    injection hab with hab; subst hab
                    exact ⟨s, hs, rfl⟩
                  | cons ev es ih =>
                    intro a b hab i s hs
                    simp only [Profiler.runAll] at hab
                    rw [Res.bind_eq_ok] at hab
                    obtain ⟨c, hc, hcb⟩ := hab
                    have : ∃ s', c.sections[i]? = some s' ∧ s'.parent = s.parent := by
                      cases ev with
                      | start m u u' =>
                        simp only [Profiler.run, Profiler.start, Profiler.acquire] at hc
                        split at hc
                        · cases hc
                        · injection hc with hc
                          subst hc
                          simp only [Profiler.getElem?_modify_eq]
                          split
                          · rw [hs]
                            refine ⟨_, rfl, ?_⟩
                            split <;> rfl
                          · rw [List.getElem?_append_left (List.getElem?_eq_some_iff.1 hs).1, hs]
                            refine ⟨_, rfl, ?_⟩
                            split <;> rfl
                      | stop u =>
                        simp only [Profiler.run, Profiler.end'] at hc
                        split at hc
                        · cases hc
                        · split at hc
                          · split at hc
                            · injection hc with hc
                              subst hc
                              simp only [Profiler.getElem?_modify_eq, hs]
                              refine ⟨_, rfl, ?_⟩
                              split <;> rfl
                            · cases hc
                          · cases hc
                      | report u =>
                        obtain ⟨secs, cur⟩ := a
                        cases secs with
                        | nil => simp at hs
                        | cons s0 rest =>
                          simp only [Profiler.run, Profiler.closeRoot] at hc
                          split at hc
                          · cases hc
                          · injection hc with hc
                            subst hc
                            cases i with
                            | zero =>
                              simp only [List.getElem?_cons_zero, Option.some.injEq] at hs
                              subst hs
                              exact ⟨_, rfl, rfl⟩
                            | succ i => exact ⟨s, hs, rfl⟩
                    obtain ⟨s', hs', hpp⟩ := this
                    obtain ⟨s'', hs'', hpp'⟩ := ih c b hcb i s' hs'
                    exact ⟨s'', hs'', hpp'.trans hpp⟩
                cases hs1 : p1.sections[p1.current]? with
                | none => rw [hs1] at hp1; cases hp1
                | some s1 =>
                  rw [hs1] at hp1
                  obtain ⟨s', hs', hpp⟩ := keep inner p1 p2 e2 _ _ hs1
                  rw [← c2, hcur] at hs'
                  injection hs' with hs'
                  subst hs'
                  rw [hpar] at hpp
                  simp only [Option.bind_some] at hp1
                  rw [hp1] at hpp
                  injection hpp
              · cases e3
            · cases e3
        refine ⟨p4, σ4, ps4, ?_, r4, s4, by rw [c4, hcur]⟩
        have : Profiler.Event.start n t t' :: inner ++ .stop u :: rest
            = .start n t t' :: (inner ++ .stop u :: rest) := rfl
        rw [this]
        simp only [Profiler.runAll, Profiler.run, e1, Res.bind_ok]
        rw [app, e2]
        simp only [Res.bind_ok, Profiler.runAll, Profiler.run, e3]
        exact e4
    obtain ⟨p', _, _, h1, _, _, h2⟩ := key es h p σ ps r
    exact ⟨p', h1, h2⟩

example : Balanced (N := Nat) [.start 1 0 1, .start 2 3 3, .stop 5, .start 2 6 6, .stop 9, .stop 10] :=
  .call 1 0 1 10 (.call 2 3 3 5 .nil (.call 2 6 6 9 .nil .nil)) .nil

example : ∃ p, Profiler.runAll [.start 1 0 1, .start 2 3 3, .stop 5, .start 2 6 6, .stop 9, .stop 10] (Profiler.reset 0 0)
    = .ok p ∧ p.sections.map (fun s => (s.name, s.total, p.exclusiveTime s)) = [(0, 0, -10), (1, 10, 5), (2, 5, 5)] :=
  ⟨_, rfl, by decide⟩

/-- The clock readings of an event. -/
def eventTimes {N : Type} : Profiler.Event N → List Int
  | .start _ t t' => [t, t']
  | .stop t => [t]
  | .report t => [t]

/-- Times inside open calls, from the innermost outwards: `c` is when the call above was entered, or now. -/
def OpenOk {N : Type} (tot inn : List N → Int) : Int → List (N × Int) → Prop
  | _, [] => True
  | c, (n, t0) :: rest => t0 ≤ c ∧ inn (n :: rest.map Prod.fst) ≤ tot (n :: rest.map Prod.fst) + (c - t0) ∧
      OpenOk tot inn t0 rest

theorem OpenOk.mono {N : Type} {tot inn : List N → Int} {c c' : Int} {st : List (N × Int)} (h : OpenOk tot inn c st)
    (hc : c ≤ c') : OpenOk tot inn c' st := by
  cases st with
  | nil => trivial
  | cons x rest =>
    obtain ⟨n, t0⟩ := x
    obtain ⟨h1, h2, h3⟩ := h
    exact ⟨by omega, by omega, h3⟩

theorem OpenOk.congr {N : Type} {tot inn tot' inn' : List N → Int} {c : Int} {st : List (N × Int)} (h : OpenOk tot inn c st)
    (he : ∀ p, p.length ≤ st.length → tot' p = tot p ∧ inn' p = inn p) : OpenOk tot' inn' c st := by
  induction st generalizing c with
  | nil => trivial
  | cons x rest ih =>
    obtain ⟨n, t0⟩ := x
    obtain ⟨h1, h2, h3⟩ := h
    have := he (n :: rest.map Prod.fst) (by simp)
    refine ⟨h1, by rw [this.1, this.2]; exact h2, ih h3 (fun p hp => he p (by simp; omega))⟩

theorem exclusive_spec {N : Type} [DecidableEq N] (es : List (Profiler.Event N)) (σ : CallSpec N) (now : Int)
    (hop : OpenOk σ.totalOf σ.innerOf now σ.stack)
    (hcl : ∀ q, q ≠ [] → ¬ q <:+ σ.path → σ.innerOf q ≤ σ.totalOf q)
    (ht : (now :: es.flatMap eventTimes).Pairwise (· ≤ ·)) (σ' : CallSpec N) (hr : CallSpec.run es σ = .ok σ') :
    ∀ q, q ≠ [] → ¬ q <:+ σ'.path → σ'.innerOf q ≤ σ'.totalOf q := by
  induction es generalizing σ now with
  | nil =>
    simp only [CallSpec.run] at hr
    injection hr with hr; subst hr
    exact hcl
  | cons e es ih =>
    simp only [CallSpec.run] at hr
    rw [Res.bind_eq_ok] at hr
    obtain ⟨σ1, h1, h2⟩ := hr
    cases e with
    | start n t t' =>
      simp only [CallSpec.step] at h1
      injection h1 with h1; subst h1
      have ht' : now ≤ t ∧ t ≤ t' ∧ (t' :: es.flatMap eventTimes).Pairwise (· ≤ ·) := by
        simp only [List.flatMap_cons, eventTimes, List.cons_append, List.nil_append, List.pairwise_cons] at ht
        exact ⟨ht.1 t (by simp), ht.2.1 t' (by simp), List.pairwise_cons.2 ht.2.2⟩
      refine ih _ t' ?_ ?_ ht'.2.2 h2
      · refine ⟨ht'.2.1, ?_, hop.mono ht'.1⟩
        have := hcl (n :: σ.path) (by simp) (by
          intro hs
          have := hs.length_le
          simp at this)
        have e : σ.stack.map Prod.fst = σ.path := rfl
        have ei : ∀ q, CallSpec.innerOf ⟨(n, t) :: σ.stack, σ.done, (n :: σ.path) :: σ.entered, (n :: σ.path, t' - t) :: σ.over⟩ q = σ.innerOf q := fun _ => rfl
        have et : ∀ q, CallSpec.totalOf ⟨(n, t) :: σ.stack, σ.done, (n :: σ.path) :: σ.entered, (n :: σ.path, t' - t) :: σ.over⟩ q = σ.totalOf q := fun _ => rfl
        rw [e, ei, et]
        have := ht'.2.1
        omega
      · intro q hq hns
        exact hcl q hq (fun hs => hns (hs.trans (List.suffix_cons _ _)))
    | stop t =>
      simp only [CallSpec.step] at h1
      cases hst : σ.stack with
      | nil => rw [hst] at h1; cases h1
      | cons x rest =>
        obtain ⟨n, t0⟩ := x
        rw [hst] at h1
        injection h1 with h1; subst h1
        rw [hst] at hop
        obtain ⟨o1, o2, o3⟩ := hop
        have hpath : σ.path = n :: rest.map Prod.fst := by simp [CallSpec.path, hst]
        have ht' : now ≤ t ∧ (t :: es.flatMap eventTimes).Pairwise (· ≤ ·) := by
          simp only [List.flatMap_cons, eventTimes, List.cons_append, List.nil_append, List.pairwise_cons] at ht
          exact ⟨ht.1 t (by simp), List.pairwise_cons.2 ht.2⟩
        have tot : ∀ q, CallSpec.totalOf ⟨rest, (σ.path, t - t0) :: σ.done, σ.entered, σ.over⟩ q
            = σ.totalOf q + if q = σ.path then t - t0 else 0 := by
          intro q
          unfold CallSpec.totalOf
          simp only [List.filter_cons]
          by_cases h : σ.path = q
          · simp only [h, decide_true, if_true, List.map_cons, List.sum_cons]; ring
          · rw [if_neg (by simpa using h), if_neg (fun e => h e.symm)]; simp
        have inn : ∀ q, CallSpec.innerOf ⟨rest, (σ.path, t - t0) :: σ.done, σ.entered, σ.over⟩ q
            = σ.innerOf q + if q = rest.map Prod.fst then t - t0 else 0 := by
          intro q
          unfold CallSpec.innerOf
          simp only [List.filter_cons]
          by_cases h : rest.map Prod.fst = q
          · rw [if_pos (by simp [hpath, h]), if_pos h.symm]
            simp only [List.map_cons, List.sum_cons]; ring
          · rw [if_neg (by simp [hpath, h]), if_neg (fun e => h e.symm)]; simp
        refine ih _ t ?_ ?_ ht'.2 h2
        · cases rest with
          | nil => trivial
          | cons y rest =>
            obtain ⟨m, s0⟩ := y
            obtain ⟨p1, p2, p3⟩ := o3
            refine ⟨by omega, ?_, ?_⟩
            · rw [tot, inn, if_pos (by simp), if_neg (by
                rw [hpath]; intro h; have := congrArg List.length h; simp at this)]
              omega
            · refine p3.congr ?_
              intro q hq
              rw [tot, inn, if_neg (by
                rw [hpath]; intro h; have := congrArg List.length h; simp at this; omega), if_neg (by
                intro h; have := congrArg List.length h; simp at this; omega)]
              simp
        · intro q hq hns
          have hnr : q ≠ rest.map Prod.fst := by
            rintro rfl
            exact hns (List.suffix_refl _)
          rw [tot, inn, if_neg hnr, Int.add_zero]
          by_cases hqp : q = σ.path
          · rw [if_pos hqp, hqp, hpath]
            omega
          · rw [if_neg hqp, Int.add_zero]
            refine hcl q hq ?_
            intro hs
            rw [hpath] at hs
            rcases List.suffix_cons_iff.1 hs with h | h
            · exact hqp (by rw [hpath]; exact h)
            · exact hns h
    | report t =>
      simp only [CallSpec.step] at h1
      injection h1 with h1; subst h1
      simp only [List.flatMap_cons, eventTimes, List.cons_append, List.nil_append, List.pairwise_cons] at ht
      exact ih σ t (hop.mono (ht.1 t (by simp))) hcl (List.pairwise_cons.2 ht.2) h2

/-- With a clock that never goes back, the exclusive time of a section none of whose invocations is open is never
negative. -/
theorem C44_exclusive_nonneg {N : Type} [DecidableEq N] (totalName : N) (t : Int) (es : List (Profiler.Event N))
    (ht : (es.flatMap eventTimes).Pairwise (· ≤ ·)) (p : Profiler N) (σ : CallSpec N)
    (hp : Profiler.runAll es (Profiler.reset totalName t) = .ok p) (hσ : CallSpec.run es CallSpec.init = .ok σ)
    (i : Nat) (q : List N) (s : Section N) (hi : HasPath p.sections i q) (hs : p.sections[i]? = some s) (hq : q ≠ [])
    (hclosed : ¬ q <:+ σ.path) : 0 ≤ p.exclusiveTime s := by
  have h := C44_profiler totalName t es
  rw [hp, hσ] at h
  have hsh : ProfilerShows p σ := h
  rw [hsh.exclusive i q s hi hs hq]
  have : σ.innerOf q ≤ σ.totalOf q := by
    cases hes : es.flatMap eventTimes with
    | nil =>
      refine exclusive_spec es CallSpec.init 0 trivial (by simp [CallSpec.init, CallSpec.innerOf, CallSpec.totalOf]) ?_ σ hσ q
        hq hclosed
      rw [hes]; simp
    | cons u us =>
      refine exclusive_spec es CallSpec.init u trivial (by simp [CallSpec.init, CallSpec.innerOf, CallSpec.totalOf]) ?_ σ hσ q
        hq hclosed
      rw [hes] at ht ⊢
      refine List.pairwise_cons.2 ⟨?_, ht⟩
      intro a ha
      rcases List.mem_cons.1 ha with rfl | ha
      · exact le_rfl
      · exact (List.pairwise_cons.1 ht).1 a ha
  omega

/-- Ending a section that was not started is undefined. -/
theorem C44_end_without_start {N : Type} [DecidableEq N] (totalName : N) (t u : Int) (es : List (Profiler.Event N))
    (h : Balanced es) : Profiler.runAll (es ++ [.stop u]) (Profiler.reset totalName t) = .ub := by
  have h0 := C44_profiler totalName t (es ++ [.stop u])
  obtain ⟨σ, h1, h2⟩ := CallSpec.balanced es h (CallSpec.init : CallSpec N)
  have : CallSpec.run (es ++ [.stop u]) (CallSpec.init : CallSpec N) = .ub := by
    rw [CallSpec.run_append, h1]
    simp only [Res.bind_ok, CallSpec.run, CallSpec.step, h2, CallSpec.init]
    rfl
  rw [this] at h0
  cases hr : Profiler.runAll (es ++ [.stop u]) (Profiler.reset totalName t) <;> rw [hr] at h0 <;>
    first
    | rfl
    | exact h0.elim

/-! ## C45 -/

/-- The intervals that a sequence of measurements (name, time at the call, time when it is done) attributes to a name: from
the end of the previous one to the call. -/
def intervals (name : Str) : Int → List (Str × Int × Int) → List Int
  | _, [] => []
  | e, (n, now, t') :: ms => if n = name then (now - e) :: intervals name t' ms else intervals name t' ms

/-- The names in order of first use. -/
def firstUses : List Str → List Str
  | [] => []
  | n :: ns => n :: (firstUses ns).filter (· ≠ n)

theorem addTo_names (name : Str) (d : Int) (ms : List (Str × Int)) :
    (Stopwatch.addTo name d ms).map Prod.fst
      = if name ∈ ms.map Prod.fst then ms.map Prod.fst else ms.map Prod.fst ++ [name] := by
  induction ms with
  | nil => simp [Stopwatch.addTo]
  | cons m ms ih =>
    obtain ⟨n, x⟩ := m
    unfold Stopwatch.addTo
    by_cases h : n = name
    · simp [h]
    · rw [if_neg h]
      simp only [List.map_cons, ih, List.mem_cons]
      have : ¬ name = n := fun e => h e.symm
      by_cases h' : name ∈ ms.map Prod.fst
      · simp [h']
      · simp [h', this]

theorem addTo_get (name : Str) (d : Int) (ms : List (Str × Int)) (hn : (ms.map Prod.fst).Nodup) (n : Str) (x : Int) :
    (n, x) ∈ Stopwatch.addTo name d ms ↔
      if n = name then (∃ y, (n, y) ∈ ms ∧ x = y + d) ∨ (n ∉ ms.map Prod.fst ∧ x = d) else (n, x) ∈ ms := by
  induction ms with
  | nil => by_cases h : n = name <;> simp [Stopwatch.addTo, h]
  | cons m ms ih =>
    obtain ⟨k, z⟩ := m
    simp only [List.map_cons, List.nodup_cons] at hn
    have ih := ih hn.2
    unfold Stopwatch.addTo
    by_cases hk : k = name
    · subst hk
      rw [if_pos rfl, List.mem_cons]
      by_cases hnk : n = k
      · subst hnk
        have hnot : ∀ y, (n, y) ∉ ms := fun y hy => hn.1 (List.mem_map.2 ⟨_, hy, rfl⟩)
        simp [hnot]
      · simp [hnk]
    · rw [if_neg hk, List.mem_cons, ih]
      by_cases hnn : n = name
      · subst hnn
        have : n ≠ k := fun e => hk e.symm
        simp [this]
      · simp [hnn]

theorem addTo_sum (name : Str) (d : Int) (ms : List (Str × Int)) :
    ((Stopwatch.addTo name d ms).map Prod.snd).sum = (ms.map Prod.snd).sum + d := by
  induction ms with
  | nil => simp [Stopwatch.addTo]
  | cons m ms ih =>
    obtain ⟨n, x⟩ := m
    unfold Stopwatch.addTo
    split
    · simp only [List.map_cons, List.sum_cons]; ring
    · simp only [List.map_cons, List.sum_cons, ih]; ring

/-- No time is lost: all measures together with the internal one are the time from the beginning to the last measurement. -/
theorem C45_no_time_lost (ms : List (Str × Int × Int)) (t : Int) :
    ((Stopwatch.addAll ms (Stopwatch.new t)).report.map Prod.snd).sum
      = (match ms.getLast? with | none => t | some m => m.2.2) - t := by
  have key : ∀ (ms : List (Str × Int × Int)) (w : Stopwatch),
      (((Stopwatch.addAll ms w).measures).map Prod.snd).sum + (Stopwatch.addAll ms w).internal
        = (w.measures.map Prod.snd).sum + w.internal + ((match ms.getLast? with | none => w.epoch | some m => m.2.2) - w.epoch) := by
    intro ms
    induction ms with
    | nil => intro w; simp [Stopwatch.addAll]
    | cons m ms ih =>
      intro w
      have := ih (w.addMeasure m.1 m.2.1 m.2.2)
      unfold Stopwatch.addAll at this ⊢
      rw [List.foldl_cons, this]
      simp only [Stopwatch.addMeasure, addTo_sum]
      cases ms with
      | nil => simp; ring
      | cons m' ms =>
        rw [List.getLast?_cons_cons]
        cases hl : (m' :: ms).getLast? with
        | none => simp at hl
        | some z => simp; ring
  have := key ms (Stopwatch.new t)
  simp only [Stopwatch.report, List.map_append, List.sum_append, List.map_cons, List.map_nil, List.sum_cons, List.sum_nil]
  simp only [Stopwatch.new, List.map_nil, List.sum_nil] at this ⊢
  omega

/-- Each name's entry is the sum of its intervals, and the names appear once, in order of first use. -/
theorem C45_measures (ms : List (Str × Int × Int)) (t : Int) :
    (Stopwatch.addAll ms (Stopwatch.new t)).measures
      = (firstUses (ms.map (·.1))).map fun n => (n, (intervals n t ms).sum) := by
  -- generalised to a stopwatch in use
  have key : ∀ (ms : List (Str × Int × Int)) (w : Stopwatch), (w.measures.map Prod.fst).Nodup →
      (Stopwatch.addAll ms w).measures
        = w.measures.map (fun m => (m.1, m.2 + (intervals m.1 w.epoch ms).sum))
          ++ ((firstUses (ms.map (·.1))).filter (· ∉ w.measures.map Prod.fst)).map
              fun n => (n, (intervals n w.epoch ms).sum) := by
    intro ms
    induction ms with
    | nil => intro w _; simp [Stopwatch.addAll, intervals, firstUses]
    | cons m ms ih =>
      obtain ⟨n, now, t'⟩ := m
      intro w hn
      have hn' : ((w.addMeasure n now t').measures.map Prod.fst).Nodup := by
        simp only [Stopwatch.addMeasure, addTo_names]
        split
        · exact hn
        · rename_i h
          rw [List.nodup_append]
          exact ⟨hn, by simp, by
            intro a ha b hb
            simp only [List.mem_singleton] at hb
            subst hb
            rintro rfl
            exact h ha⟩
      have := ih (w.addMeasure n now t') hn'
      unfold Stopwatch.addAll at this ⊢
      rw [List.foldl_cons, this]
      simp only [Stopwatch.addMeasure, addTo_names, List.map_cons, firstUses]
      by_cases hm : n ∈ w.measures.map Prod.fst
      · -- an entry is increased
        rw [if_pos hm]
        congr 1
        · -- old entries
          have : ∀ (l : List (Str × Int)), (l.map Prod.fst).Nodup → n ∈ l.map Prod.fst →
              (Stopwatch.addTo n (now - w.epoch) l).map (fun m => (m.1, m.2 + (intervals m.1 t' ms).sum))
                = l.map (fun m => (m.1, m.2 + (intervals m.1 w.epoch ((n, now, t') :: ms)).sum)) := by
            intro l
            induction l with
            | nil => intro _ h; simp at h
            | cons y l ihl =>
              obtain ⟨k, x⟩ := y
              intro hnd hmem
              simp only [List.map_cons, List.nodup_cons] at hnd
              unfold Stopwatch.addTo
              by_cases hk : k = n
              · subst hk
                rw [if_pos rfl]
                simp only [List.map_cons, intervals, if_true, List.sum_cons]
                congr 1
                · congr 1; ring
                · apply List.map_congr_left
                  intro m hml
                  have : k ≠ m.1 := by
                    intro e
                    exact hnd.1 (List.mem_map.2 ⟨m, hml, e.symm⟩)
                  rw [if_neg this]
              · rw [if_neg hk]
                have hmem' : n ∈ l.map Prod.fst := by
                  simp only [List.map_cons, List.mem_cons] at hmem
                  rcases hmem with h | h
                  · exact absurd h.symm hk
                  · exact h
                simp only [List.map_cons]
                rw [ihl hnd.2 hmem']
                simp only [intervals, if_neg (fun e : n = k => hk e.symm)]
          exact this w.measures hn hm
        · rw [List.filter_cons_of_neg (by simpa using hm), List.filter_filter]
          have : (fun a : Str => decide (a ∉ w.measures.map Prod.fst) && decide (a ≠ n))
              = fun a => decide (a ∉ w.measures.map Prod.fst) := by
            funext a
            by_cases ha : a = n
            · subst ha; simp only [hm, not_true_eq_false, decide_false, Bool.false_and]
            · simp [ha]
          rw [this]
          apply List.map_congr_left
          intro a ha
          have hane : n ≠ a := by
            rintro rfl
            have := (List.mem_filter.1 ha).2
            simp only [decide_eq_true_eq] at this
            exact this hm
          simp only [intervals, if_neg hane]
      · -- an entry is added
        rw [if_neg hm]
        have hadd : ∀ (l : List (Str × Int)), n ∉ l.map Prod.fst → Stopwatch.addTo n (now - w.epoch) l = l ++ [(n, now - w.epoch)] := by
          intro l
          induction l with
          | nil => intro _; rfl
          | cons y l ihl =>
            obtain ⟨k, x⟩ := y
            intro hmem
            simp only [List.map_cons, List.mem_cons, not_or] at hmem
            unfold Stopwatch.addTo
            rw [if_neg (fun e : k = n => hmem.1 e.symm), ihl hmem.2]
            rfl
        rw [hadd _ hm, List.map_append, List.append_assoc]
        congr 1
        · apply List.map_congr_left
          intro m hmm
          have : n ≠ m.1 := by
            rintro rfl
            exact hm (List.mem_map.2 ⟨m, hmm, rfl⟩)
          simp only [intervals, if_neg this]
        · rw [List.filter_cons_of_pos (by simpa using hm), List.filter_filter]
          simp only [List.map_cons, List.map_nil, List.cons_append, List.nil_append, intervals, if_true, List.sum_cons]
          congr 1
          have : (fun a : Str => decide (a ∉ w.measures.map Prod.fst) && decide (a ≠ n))
              = fun a => decide (a ∉ w.measures.map Prod.fst ++ [n]) := by
            funext a
            rw [← Bool.decide_and]
            congr 1
            simp only [List.mem_append, List.mem_singleton, not_or]
          rw [this]
          apply List.map_congr_left
          intro a ha
          have hane : n ≠ a := by
            rintro rfl
            have := (List.mem_filter.1 ha).2
            simp at this
          simp only [if_neg hane]
  have := key ms (Stopwatch.new t) (by simp [Stopwatch.new])
  rw [this]
  simp [Stopwatch.new]

/-- The report has a line for every name, and one more, for the time spent in `add_measure` itself. -/
theorem C45_report (ms : List (Str × Int × Int)) (t : Int) :
    (Stopwatch.addAll ms (Stopwatch.new t)).report = ((firstUses (ms.map (·.1))).map fun n => (n, (intervals n t ms).sum)) ++
      [(b!"internal", (ms.map fun m => m.2.2 - m.2.1).sum)] := by
  have key : ∀ (ms : List (Str × Int × Int)) (w : Stopwatch),
      (Stopwatch.addAll ms w).internal = w.internal + (ms.map fun m => m.2.2 - m.2.1).sum := by
    intro ms
    induction ms with
    | nil => intro w; simp [Stopwatch.addAll]
    | cons m ms ih =>
      intro w
      have := ih (w.addMeasure m.1 m.2.1 m.2.2)
      unfold Stopwatch.addAll at this ⊢
      rw [List.foldl_cons, this]
      simp only [Stopwatch.addMeasure, List.map_cons, List.sum_cons]
      ring
  unfold Stopwatch.report
  rw [C45_measures, key]
  simp [Stopwatch.new]

example : (Stopwatch.addAll [(b!"a", 3, 4), (b!"b", 6, 6), (b!"a", 9, 10)] (Stopwatch.new 0)).report
    = [(b!"a", 6), (b!"b", 2), (b!"internal", 2)] := by decide

end Flut
