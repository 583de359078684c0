import Verif.Spec.LogStatic
import Verif.Props.Log

/-!
# Property theorems for logging from static objects: C147
-/

namespace Flut
namespace Log

structure PRep (p : Program) (x : SinkSpec × List Sent) : Prop where
  log : Rep p.log x.1
  sent : p.sent = x.2

theorem prep_init : PRep {} (SinkSpec.init, []) := ⟨rep_init, rfl⟩

theorem useAll_append (ph : Phase) (as bs : List Act) (p : Program) : useAll ph (as ++ bs) p = useAll ph as p >>= useAll ph bs := by
  induction as generalizing p with
  | nil => rfl
  | cons a as ih =>
    rw [List.cons_append]
    unfold useAll
    cases useLog ph p a <;> simp [ih]

theorem useAll_spec (as : List Act) {p : Program} {x : SinkSpec × List Sent} (r : PRep p x) :
    Agree PRep (useAll .alive as p) (SinkSpec.calls as x) := by
  induction as generalizing p x with
  | nil => exact r
  | cons a as ih =>
    obtain ⟨σ, ev⟩ := x
    cases a with
    | message l msg =>
      have h := send_spec r.log l msg
      simp only [useAll, useLog, SinkSpec.calls]
      by_cases ht : p.log.testLevel l = true
      · rw [if_pos ht] at h
        simp only [if_pos ht, h, if_true]
        refine ih ⟨r.log, ?_⟩
        simp only [r.sent]
      · rw [if_neg ht] at h
        simp only [if_neg ht]
        injection h with h
        refine ih ⟨r.log, ?_⟩
        simp only [← h, r.sent, List.append_nil]
    | op o =>
      simp only [useAll, useLog, SinkSpec.calls, if_true]
      have ag := rep_run r.log o
      simp only at ag
      cases hg : p.log.run o <;> cases hs : σ.step o <;> rw [hg, hs] at ag <;>
        first | exact ih ⟨ag, r.sent⟩ | exact ag | exact ag.elim

end Log

open Log

/-- If `log.cpp` is initialised before all source files with static objects that use the log, they can do so as if the log existed
all the time: static sinks get messages from their construction until their destruction, whatever `main` does. -/
theorem C147_first (objects : List StaticObject) (main : List Act) :
    Agree ProgramShows (wholeProgram [] objects main) (SinkSpec.calls (inOrder objects main) (SinkSpec.init, [])) := by
  have e : wholeProgram [] objects main = useAll .alive (inOrder objects main) {} := by
    unfold wholeProgram inOrder
    rw [useAll_append, useAll_append]
    simp only [List.flatMap_nil, List.reverse_nil, useAll, Res.bind_ok]
    cases useAll .alive (objects.flatMap (·.ctor)) {} with
    | ok a =>
      simp only [Res.bind_ok]
      cases useAll .alive main a with
      | ok b =>
        simp only [Res.bind_ok]
        cases useAll .alive (objects.reverse.flatMap (·.dtor)) b <;> rfl
      | _ => rfl
    | _ => rfl
  rw [e]
  exact (useAll_spec _ prep_init).mono fun _ _ r => ⟨r.log.shows, r.sent⟩

theorem early_nothing (as : List Act) (h : ∀ a ∈ as, ∃ l msg, a = .message l msg ∧ l < neverLevel) :
    useAll .early as {} = .ok {} := by
  induction as with
  | nil => rfl
  | cons a as ih =>
    obtain ⟨l, msg, rfl, hl⟩ := h a (by simp)
    have ht : ¬ (({} : Program).log.testLevel l = true) := by
      simp only [testLevel, decide_eq_true_eq, not_le]
      exact hl
    simp only [useAll, useLog, if_neg ht]
    exact ih fun a ha => h a (by simp [ha])

/-- Logging from constructors of static objects is harmless in every order: what is logged before `log.cpp` is initialised is
dropped, as there is no sink yet. -/
theorem C147_early (as : List Act) (h : ∀ a ∈ as, ∃ l msg, a = .message l msg ∧ l < neverLevel) (after : List StaticObject)
    (main : List Act) : wholeProgram [⟨as, []⟩] after main = wholeProgram [] after main := by
  unfold wholeProgram
  simp only [List.flatMap_cons, List.flatMap_nil, List.append_nil, List.reverse_cons, List.reverse_nil, List.nil_append]
  rw [early_nothing as h]
  rfl

theorem dropped (ph : Phase) (as : List Act) (p : Program) (h : ∀ a ∈ as, ∃ l msg, a = .message l msg ∧ l < criticalLevel)
    (hp : criticalLevel ≤ p.log.lowest) : useAll ph as p = .ok p := by
  induction as with
  | nil => rfl
  | cons a as ih =>
    obtain ⟨l, msg, rfl, hl⟩ := h a (by simp)
    have ht : ¬ (p.log.testLevel l = true) := by
      simp only [testLevel, decide_eq_true_eq, not_le]
      omega
    simp only [useAll, useLog, if_neg ht]
    exact ih fun a ha => h a (by simp [ha])

theorem any_order {before after : List StaticObject} (h : ∀ o ∈ before ++ after, OnlyLogs o) {main : List Act} {p : Program}
    (hp : useAll .alive main {} = .ok p) (hl : criticalLevel ≤ p.log.lowest) : wholeProgram before after main = .ok p := by
  have hc : ∀ os : List StaticObject, (∀ o ∈ os, OnlyLogs o) → ∀ a ∈ os.flatMap (·.ctor), ∃ l msg, a = .message l msg ∧ l < criticalLevel := by
    intro os ho a ha
    obtain ⟨o, h1, h2⟩ := List.mem_flatMap.1 ha
    exact ho o h1 a (List.mem_append_left _ h2)
  have hd : ∀ os : List StaticObject, (∀ o ∈ os, OnlyLogs o) → ∀ a ∈ os.reverse.flatMap (·.dtor), ∃ l msg, a = .message l msg ∧ l < criticalLevel := by
    intro os ho a ha
    obtain ⟨o, h1, h2⟩ := List.mem_flatMap.1 ha
    exact ho o (List.mem_reverse.1 h1) a (List.mem_append_right _ h2)
  have hb : ∀ o ∈ before, OnlyLogs o := fun o ho => h o (List.mem_append_left _ ho)
  have ha : ∀ o ∈ after, OnlyLogs o := fun o ho => h o (List.mem_append_right _ ho)
  have h0 : criticalLevel ≤ ({} : Program).log.lowest := by decide
  unfold wholeProgram
  rw [dropped .early _ {} (hc before hb) h0, Res.bind_ok, dropped .alive _ {} (hc after ha) h0, Res.bind_ok, hp, Res.bind_ok,
    dropped .alive _ p (hd after ha) hl, Res.bind_ok, dropped .late _ p (hd before hb) hl]

/-- Static objects that only log below the level critical are harmless in every order of initialisation, if all sinks are created by
`main` and destroyed again, the last of them at last: the sinks get what `main` logs, and nothing else happens. -/
theorem C147_any_order (before after : List StaticObject) (h : ∀ o ∈ before ++ after, OnlyLogs o) (main : List Act) (s : Nat)
    (σ : SinkSpec) (ev : List Sent) (hs : SinkSpec.calls (main ++ [.op (.destroy s)]) (SinkSpec.init, []) = .ok (σ, ev))
    (hσ : σ.registered = []) : ∃ p, wholeProgram before after (main ++ [.op (.destroy s)]) = .ok p ∧ p.sent = ev := by
  have ag := useAll_spec (main ++ [.op (.destroy s)]) prep_init
  rw [hs] at ag
  cases hp : useAll .alive (main ++ [.op (.destroy s)]) {} with
  | ok p =>
    rw [hp] at ag
    have ag : PRep p (σ, ev) := ag
    refine ⟨p, any_order h hp ?_, ag.sent⟩
    rw [useAll_append] at hp
    obtain ⟨q, _, h2⟩ := Res.bind_eq_ok.1 hp
    obtain ⟨q', h3, h4⟩ := Res.bind_eq_ok.1 h2
    injection h4 with h4
    subst h4
    simp only [useLog, if_true] at h3
    obtain ⟨g, h5, h6⟩ := Res.bind_eq_ok.1 h3
    injection h6 with h6
    subst h6
    have hsinks : g.sinks = [] := ag.log.sinks.trans hσ
    simp only [run, Log.destroy] at h5
    split at h5
    · cases h5
    · obtain ⟨g1, h7, h8⟩ := Res.bind_eq_ok.1 h5
      injection h8 with h8
      subst h8
      obtain ⟨x, h9, h10⟩ := Res.bind_eq_ok.1 h7
      injection h10 with h10
      obtain ⟨low, h11, h12⟩ := Res.bind_eq_ok.1 h9
      injection h12 with h12
      subst h12
      subst h10
      simp only at hsinks
      simp only [hsinks, lowestLoop, Res.ok.injEq] at h11
      exact Nat.le_of_eq h11
  | throws e => rw [hp] at ag; exact ag.elim
  | ub => rw [hp] at ag; exact ag.elim
  | diverges => rw [hp] at ag; exact ag.elim

/-- So are they if there is no sink at all and nobody sets a level. -/
theorem C147_no_sink (before after : List StaticObject) (h : ∀ o ∈ before ++ after, OnlyLogs o) (main : List Act)
    (hm : ∀ a ∈ main, ∃ l msg, a = .message l msg ∧ l < neverLevel) : wholeProgram before after main = .ok {} := by
  refine any_order h (p := {}) ?_ (by decide)
  induction main with
  | nil => rfl
  | cons a as ih =>
    obtain ⟨l, msg, rfl, hl⟩ := hm a (by simp)
    have ht : ¬ (({} : Program).log.testLevel l = true) := by
      simp only [testLevel, decide_eq_true_eq, not_le]
      exact hl
    simp only [useAll, useLog, if_neg ht]
    exact ih fun a ha => hm a (by simp [ha])

example : OnlyLogs ⟨[.message 3 b!"hello"], [.message 5 b!"bye"]⟩ ∧
    ∃ σ, SinkSpec.calls ([.op (.create 1 3), .message 4 b!"x"] ++ [.op (.destroy 1)]) (SinkSpec.init, []) = .ok (σ, [(1, 4, b!"x")]) ∧
      σ.registered = [] := by
  refine ⟨?_, ⟨_, rfl, rfl⟩⟩
  intro a ha
  simp only [List.cons_append, List.nil_append, List.mem_cons, List.not_mem_nil, or_false] at ha
  rcases ha with rfl | rfl
  · exact ⟨3, _, rfl, by decide⟩
  · exact ⟨5, _, rfl, by decide⟩

example : ∃ p, wholeProgram [] [staticSink 1 3, ⟨[.message 3 b!"hello"], [.message 5 b!"bye"]⟩] [.message 4 b!"x"] = .ok p ∧
    p.sent = [(1, 3, b!"hello"), (1, 4, b!"x"), (1, 5, b!"bye")] := ⟨_, rfl, rfl⟩

/-- A static sink that is initialised before `log.cpp` is undefined, whatever else the program does. -/
theorem C147_sink_refuted (s l : Nat) (before after : List StaticObject) (main : List Act)
    (h : ∀ o ∈ before, ∀ a ∈ o.ctor, ∃ l msg, a = .message l msg ∧ l < neverLevel) (more : List StaticObject) :
    wholeProgram (before ++ staticSink s l :: more) after main = .ub := by
  unfold wholeProgram
  rw [List.flatMap_append, useAll_append, early_nothing, Res.bind_ok]
  · rfl
  · intro a ha
    obtain ⟨o, h1, h2⟩ := List.mem_flatMap.1 ha
    exact h o h1 a h2

/-- A critical message from the destructor of a static object is undefined if its source file was initialised before `log.cpp` and
`main` had a sink, although all sinks are gone by then. -/
theorem C147_critical_refuted : (∃ p, wholeProgram [] [⟨[], [.message criticalLevel b!"x"]⟩] [.op (.create 1 3), .op (.destroy 1)] = .ok p) ∧
    wholeProgram [⟨[], [.message criticalLevel b!"x"]⟩] [] [.op (.create 1 3), .op (.destroy 1)] = .ub := ⟨⟨_, rfl⟩, rfl⟩

/-- Setting a level without any sink is enough to make later messages from destructors undefined. -/
theorem C147_level_refuted : (∃ p, wholeProgram [] [⟨[], [.message 3 b!"x"]⟩] [.op (.setGlobal 1)] = .ok p ∧ p.sent = []) ∧
    wholeProgram [⟨[], [.message 3 b!"x"]⟩] [] [.op (.setGlobal 1)] = .ub := ⟨⟨_, rfl, rfl⟩, rfl⟩

/-- So is a sink that is never destroyed. -/
theorem C147_leak_refuted : (∃ p, wholeProgram [] [⟨[], [.message 3 b!"x"]⟩] [.op (.create 1 3)] = .ok p ∧ p.sent = [(1, 3, b!"x")]) ∧
    wholeProgram [⟨[], [.message 3 b!"x"]⟩] [] [.op (.create 1 3)] = .ub := ⟨⟨_, rfl, rfl⟩, rfl⟩

end Flut
