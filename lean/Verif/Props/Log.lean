import Verif.Spec.Log
import Verif.Props.Data
import Mathlib.Data.List.Nodup
import Mathlib.Order.Basic
import Mathlib.Order.Nat

/-!
# C43, C48: logging and test counters
-/

namespace Flut
namespace Log

/-- The state corresponds to the specification, and the cached level never exceeds the level of a registered sink. -/
structure Rep (g : Log) (σ : SinkSpec) : Prop where
  objects : g.objects = σ.level
  sinks : g.sinks = σ.registered
  nodup : σ.registered.Nodup
  exist : ∀ s ∈ σ.registered, (σ.level s).isSome
  lowest : ∀ s ∈ σ.registered, ∀ l, σ.level s = some l → g.lowest ≤ l

theorem lowestLoop_spec (g : Log) (ss : List Nat) (low : Nat) (h : ∀ s ∈ ss, (g.objects s).isSome) :
    ∃ r, g.lowestLoop ss low = .ok r ∧ r ≤ low ∧ (∀ s ∈ ss, ∀ l, g.objects s = some l → r ≤ l) ∧
      (r = low ∨ ∃ s ∈ ss, g.objects s = some r) := by
  induction ss generalizing low with
  | nil => exact ⟨low, rfl, le_rfl, by simp, Or.inl rfl⟩
  | cons s ss ih =>
    obtain ⟨l, hl⟩ := Option.isSome_iff_exists.1 (h s (by simp))
    obtain ⟨r, h1, h2, h3, h4⟩ := ih (if l < low then l else low) (fun s hs => h s (by simp [hs]))
    refine ⟨r, ?_, ?_, ?_, ?_⟩
    · simp [lowestLoop, levelOf, hl, h1]
    · split at h2 <;> omega
    · intro t ht lt hlt
      rcases List.mem_cons.1 ht with rfl | ht
      · rw [hl] at hlt; injection hlt with hlt; subst hlt; split at h2 <;> omega
      · exact h3 t ht lt hlt
    · rcases h4 with h4 | ⟨t, ht, e⟩
      · split at h4
        · exact Or.inr ⟨s, by simp, by rw [h4]; exact hl⟩
        · exact Or.inl h4
      · exact Or.inr ⟨t, by simp [ht], e⟩

/-- Recomputing the lowest level makes any consistent state correspond. -/
theorem getGlobal_spec (g : Log) (σ : SinkSpec) (ho : g.objects = σ.level) (hs : g.sinks = σ.registered)
    (hn : σ.registered.Nodup) (he : ∀ s ∈ σ.registered, (σ.level s).isSome) :
    ∃ r g', g.getGlobalLevel = .ok (r, g') ∧ Rep g' σ ∧ r ≤ criticalLevel ∧
      (∀ s ∈ σ.registered, ∀ l, σ.level s = some l → r ≤ l) ∧
      (r = criticalLevel ∨ ∃ s ∈ σ.registered, σ.level s = some r) := by
  obtain ⟨r, h1, h2, h3, h4⟩ := lowestLoop_spec g g.sinks criticalLevel (by rw [hs, ho]; exact he)
  rw [hs, ho] at h3 h4
  refine ⟨r, { g with lowest := r }, ?_, ⟨ho, hs, hn, he, h3⟩, h2, h3, h4⟩
  simp [getGlobalLevel, h1]

theorem rep_setGlobalLoop (l : Nat) (ss : List Nat) (g : Log) (σ : SinkSpec) (ho : g.objects = σ.level)
    (hs : g.sinks = σ.registered) (hn : σ.registered.Nodup) (he : ∀ s ∈ σ.registered, (σ.level s).isSome)
    (hss : ∀ s ∈ ss, s ∈ σ.registered) :
    ∃ g', setGlobalLoop l ss g = .ok g' ∧ g'.sinks = g.sinks ∧
      g'.objects = fun t => if t ∈ ss then some l else g.objects t := by
  induction ss generalizing g σ with
  | nil => exact ⟨g, rfl, rfl, by simp⟩
  | cons s ss ih =>
    obtain ⟨own, hown⟩ := Option.isSome_iff_exists.1 (he s (hss s (by simp)))
    rw [← ho] at hown
    obtain ⟨r, g1, h1, h2, _⟩ := getGlobal_spec ({ g with objects := Function.update g.objects s (some l) } : Log)
      ⟨Function.update g.objects s (some l), σ.registered⟩ rfl hs hn (by
        intro t ht
        by_cases hts : t = s
        · subst hts; simp
        · simp only [Function.update_of_ne hts, ho]; exact he t ht)
    obtain ⟨g', h3, h4, h5⟩ := ih g1 ⟨Function.update g.objects s (some l), σ.registered⟩ h2.objects h2.sinks hn h2.exist
      (fun t ht => hss t (by simp [ht]))
    refine ⟨g', ?_, ?_, ?_⟩
    · simp [setGlobalLoop, setLevel, hown, h1, h3]
    · rw [h4, h2.sinks, hs]
    · rw [h5, h2.objects]
      funext t
      by_cases hts : t = s
      · subst hts; simp
      · simp [hts, Function.update_of_ne hts]

theorem rep_run {g : Log} {σ : SinkSpec} (r : Rep g σ) (op : Op) : Agree Rep (g.run op) (σ.step op) := by
  have upd : ∀ (f : Nat → Option Nat) s v, Function.update f s v = fun t => if t = s then v else f t := by
    intro f s v; funext t; by_cases h : t = s <;> simp [h]
  cases op with
  | create s l =>
    simp only [run, create, SinkSpec.step, r.objects]
    cases hs : σ.level s with
    | some own => simp [Agree]
    | none =>
      have hnot : s ∉ σ.registered := by
        intro hm
        have := r.exist s hm
        rw [hs] at this; cases this
      rw [if_pos rfl]
      simp only [addSink, r.sinks, if_neg hnot]
      obtain ⟨low, g', h1, h2, _⟩ := getGlobal_spec
        ({ g with objects := Function.update σ.level s (some l), sinks := σ.registered ++ [s] } : Log)
        ⟨fun t => if t = s then some l else σ.level t, σ.registered ++ [s]⟩ (upd _ _ _) rfl
        (by
          rw [List.nodup_append]
          exact ⟨r.nodup, by simp, by simp; exact fun a ha h => hnot (h ▸ ha)⟩)
        (by
          intro t ht
          by_cases hts : t = s
          · simp [hts]
          · simp only [if_neg hts]
            rcases List.mem_append.1 ht with h | h
            · exact r.exist t h
            · simp at h; exact absurd h hts)
      rw [h1]
      exact h2
  | destroy s =>
    simp only [run, destroy, SinkSpec.step, r.objects]
    cases hs : σ.level s with
    | none => simp [Agree]
    | some own =>
      rw [if_neg (by simp)]
      obtain ⟨low, g', h1, h2, _⟩ := getGlobal_spec ({ g with sinks := g.sinks.erase s } : Log)
        ⟨σ.level, σ.registered.filter (· ≠ s)⟩ r.objects (by
          simp only [r.sinks]
          rw [r.nodup.erase_eq_filter]
          simp [Bool.beq_eq_decide_eq, bne]) (r.nodup.filter _)
          (fun t ht => r.exist t (List.mem_of_mem_filter ht))
      simp only [removeSink, h1, Res.bind_ok, Agree]
      refine ⟨?_, h2.sinks, r.nodup.filter _, ?_, ?_⟩
      · simp only [upd, h2.objects]
      · intro t ht
        have : t ≠ s := by simpa using (List.mem_filter.1 ht).2
        simp only [if_neg this]
        exact r.exist t (List.mem_of_mem_filter ht)
      · intro t ht l' hl'
        have : t ≠ s := by simpa using (List.mem_filter.1 ht).2
        simp only [if_neg this] at hl'
        exact h2.lowest t ht l' hl'
  | add s =>
    simp only [run, SinkSpec.step, r.objects]
    cases hs : σ.level s with
    | none => simp [Agree]
    | some own =>
      rw [if_neg (by simp)]
      simp only [addSink, r.sinks]
      by_cases hm : s ∈ σ.registered
      · simp only [if_pos hm]
        exact r
      · simp only [if_neg hm]
        obtain ⟨low, g', h1, h2, _⟩ := getGlobal_spec ({ g with sinks := σ.registered ++ [s] } : Log)
          ⟨σ.level, σ.registered ++ [s]⟩ r.objects rfl
          (by
            rw [List.nodup_append]
            exact ⟨r.nodup, by simp, by simp; exact fun a ha h => hm (h ▸ ha)⟩)
          (by
            intro t ht
            rcases List.mem_append.1 ht with h | h
            · exact r.exist t h
            · simp at h; subst h; simp [hs])
        rw [h1]
        exact h2
  | remove s =>
    simp only [run, SinkSpec.step, removeSink]
    obtain ⟨low, g', h1, h2, _⟩ := getGlobal_spec ({ g with sinks := g.sinks.erase s } : Log)
      ⟨σ.level, σ.registered.filter (· ≠ s)⟩ r.objects (by
        simp only [r.sinks]
        rw [r.nodup.erase_eq_filter]
        simp [Bool.beq_eq_decide_eq, bne]) (r.nodup.filter _)
        (fun t ht => r.exist t (List.mem_of_mem_filter ht))
    rw [h1]
    exact h2
  | setLevel s l =>
    simp only [run, setLevel, SinkSpec.step, r.objects]
    cases hs : σ.level s with
    | none => simp [Agree]
    | some own =>
      rw [if_neg (by simp)]
      obtain ⟨low, g', h1, h2, _⟩ := getGlobal_spec
        ({ g with objects := Function.update σ.level s (some l) } : Log)
        ⟨fun t => if t = s then some l else σ.level t, σ.registered⟩ (upd _ _ _) r.sinks r.nodup
        (by
          intro t ht
          by_cases hts : t = s
          · simp [hts]
          · simp only [if_neg hts]; exact r.exist t ht)
      simp only [h1]
      exact h2
  | setGlobal l =>
    simp only [run, setGlobalLevel, SinkSpec.step]
    obtain ⟨g', h1, h2, h3⟩ := rep_setGlobalLoop l g.sinks g σ r.objects r.sinks r.nodup r.exist
      (by rw [r.sinks]; exact fun s hs => hs)
    rw [h1]
    refine ⟨?_, ?_, r.nodup, ?_, ?_⟩
    · simp only [h3, r.sinks, r.objects]
    · simp only [h2, r.sinks]
    · intro t ht; simp [ht]
    · intro t ht l' hl'
      simp only [if_pos ht, Option.some.injEq] at hl'
      subst hl'
      exact le_rfl
  | getGlobal =>
    simp only [run, SinkSpec.step]
    obtain ⟨low, g', h1, h2, _⟩ := getGlobal_spec g σ r.objects r.sinks r.nodup r.exist
    rw [h1]
    exact h2

theorem logString_spec {g : Log} {σ : SinkSpec} (r : Rep g σ) (l : Nat) (msg : Str) (ss : List Nat)
    (hss : ∀ s ∈ ss, s ∈ σ.registered) :
    g.logString l msg ss = .ok ((ss.filter fun s => match σ.level s with
      | some own => decide (own ≤ l)
      | none => false).map fun s => (s, l, msg)) := by
  induction ss with
  | nil => rfl
  | cons s ss ih =>
    obtain ⟨own, hown⟩ := Option.isSome_iff_exists.1 (r.exist s (hss s (by simp)))
    unfold logString levelOf
    rw [ih (fun t ht => hss t (by simp [ht])), r.objects]
    by_cases ho : own ≤ l
    · rw [List.filter_cons_of_pos (by simp [hown, ho])]
      simp [hown, ho]
    · rw [List.filter_cons_of_neg (by simp only [hown]; simpa using ho)]
      simp [hown, ho]

theorem send_spec {g : Log} {σ : SinkSpec} (r : Rep g σ) (l : Nat) (msg : Str) :
    (if g.testLevel l then g.logString l msg g.sinks else .ok []) = .ok ((σ.receivers l).map fun s => (s, l, msg)) := by
  by_cases h : g.testLevel l = true
  · rw [if_pos h, r.sinks, logString_spec r l msg _ (fun s hs => hs)]
    rfl
  · rw [if_neg h]
    have : σ.receivers l = [] := by
      unfold SinkSpec.receivers
      rw [List.filter_eq_nil_iff]
      intro s hs
      cases hl : σ.level s with
      | none => simp
      | some own =>
        have := r.lowest s hs own hl
        simp only [testLevel, decide_eq_true_eq, not_le] at h
        simp only [decide_eq_true_eq, not_le]
        omega
    rw [this]; rfl

theorem Rep.shows {g : Log} {σ : SinkSpec} (r : Rep g σ) : LogShows g σ where
  message l msg := send_spec r l msg
  messagef l msg hlen h0 := by
    have : cstr (msg.take 1023) = msg := by
      rw [List.take_of_length_le (by omega)]
      unfold cstr
      have : ∀ l : Str, (∀ c ∈ l, c ≠ 0) → l.takeWhile (· != 0) = l := by
        intro l
        induction l with
        | nil => intro _; rfl
        | cons c l ih =>
          intro h
          rw [List.takeWhile_cons_of_pos (by simpa using h c (by simp)), ih (fun d hd => h d (by simp [hd]))]
      exact this msg (fun c hc h => h0 (h ▸ hc))
    unfold messagef
    rw [this]
    exact send_spec r l msg
  nodup := r.nodup
  exist := r.exist

theorem rep_runAll (ops : List Op) {g : Log} {σ : SinkSpec} (r : Rep g σ) :
    Agree Rep (runAll ops g) (SinkSpec.run ops σ) := by
  induction ops generalizing g σ with
  | nil => exact r
  | cons op ops ih => exact Agree.bind (rep_run r op) (fun _ _ h => ih h)

theorem rep_init : Rep {} SinkSpec.init := ⟨rfl, rfl, by simp [SinkSpec.init], by simp [SinkSpec.init], by simp [SinkSpec.init]⟩

end Log

/-- After every history of creating and destroying sinks, registering, deregistering and changing levels: a message goes
exactly once to each registered sink whose level admits it, in order of registration, and to no other. -/
theorem C43_log (ops : List Log.Op) : Agree LogShows (Log.runAll ops {}) (SinkSpec.run ops SinkSpec.init) :=
  (Log.rep_runAll ops Log.rep_init).mono fun _ _ r => r.shows

/-- `get_global_log_level` is the least level of the registered sinks, or critical if that is less. -/
theorem C43_global_level (ops : List Log.Op) (g : Log) (σ : SinkSpec) (h : Log.runAll ops {} = .ok g)
    (hσ : SinkSpec.run ops SinkSpec.init = .ok σ) :
    ∃ r g', g.getGlobalLevel = .ok (r, g') ∧ r ≤ criticalLevel ∧
      (∀ s ∈ σ.registered, ∀ l, σ.level s = some l → r ≤ l) ∧
      (r = criticalLevel ∨ ∃ s ∈ σ.registered, σ.level s = some r) := by
  have := Log.rep_runAll ops Log.rep_init
  rw [h, hσ] at this
  have r : Log.Rep g σ := this
  obtain ⟨low, g', h1, _, h3⟩ := Log.getGlobal_spec g σ r.objects r.sinks r.nodup r.exist
  exact ⟨low, g', h1, h3⟩

/-- A history with three sinks, one of them destroyed; the message of level warning reaches the first only. -/
example : ((Log.runAll [.create 10 3, .create 11 2, .setGlobal 5, .create 12 1, .setLevel 10 4, .destroy 12] {}) >>=
    fun g => g.message 4 b!"x") = .ok [(10, 4, b!"x")] := by decide

/-- Text longer than the internal buffer of `messagef` is cut off. -/
theorem C43_messagef_cut (g : Log) (σ : SinkSpec) (r : LogShows g σ) (l : Nat) (msg : Str) (h0 : 0 ∉ msg) :
    g.messagef l msg = .ok ((σ.receivers l).map fun s => (s, l, msg.take 1023)) := by
  rw [← r.messagef l (msg.take 1023) (by simp; omega) (fun h => h0 (List.mem_of_mem_take h))]
  unfold Log.messagef
  rw [List.take_take, Nat.min_self]

/-! ## C48 -/

/-- After any sequence of tests on a new test framework: every counter is right and `report` returns -1 exactly when a test
failed. -/
theorem C48_counts (results : List Bool) :
    let t := TestFramework.testAll results {}
    t.tests = results.length ∧ t.passed = results.countP (· = true) ∧ t.failed = results.countP (· = false) ∧
      t.tests = t.passed + t.failed ∧ (t.report = -1 ↔ false ∈ results) ∧ (t.report = 0 ↔ false ∉ results) := by
  have key : ∀ (results : List Bool) (t : TestFramework), (TestFramework.testAll results t).tests = t.tests + results.length ∧
      (TestFramework.testAll results t).passed = t.passed + results.countP (· = true) ∧
      (TestFramework.testAll results t).failed = t.failed + results.countP (· = false) := by
    intro results
    induction results with
    | nil => intro t; simp [TestFramework.testAll]
    | cons r rs ih =>
      intro t
      have := ih (t.test r).2
      unfold TestFramework.testAll at this ⊢
      rw [List.foldl_cons]
      refine ⟨?_, ?_, ?_⟩
      · rw [this.1]; cases r <;> simp [TestFramework.test] <;> omega
      · rw [this.2.1]; cases r <;> simp [TestFramework.test]; omega
      · rw [this.2.2]; cases r <;> simp [TestFramework.test]; omega
  have h := key results {}
  simp only [Nat.zero_add] at h
  have hsum : results.length = results.countP (· = true) + results.countP (· = false) := by
    induction results with
    | nil => rfl
    | cons r rs ih => cases r <;> simp_all <;> omega
  have hneg : results.countP (· = false) > 0 ↔ false ∈ results := by
    rw [gt_iff_lt, List.countP_pos_iff]; simp
  refine ⟨h.1, h.2.1, h.2.2, by omega, ?_, ?_⟩
  · unfold TestFramework.report
    rw [h.2.2, ← hneg]
    by_cases hc : results.countP (· = false) > 0
    · simp [hc]
    · simp [hc]
  · unfold TestFramework.report
    rw [h.2.2, ← hneg]
    by_cases hc : results.countP (· = false) > 0
    · simp [hc]
    · simp [hc]

/-- Each test returns its outcome. -/
theorem C48_returns (t : TestFramework) (r : Bool) : (t.test r).1 = r := by cases r <;> rfl

/-- `reset` does not set the counters to zero once a test failed. -/
theorem C48_reset_refuted (results : List Bool) (h : false ∈ results) :
    (TestFramework.testAll results {}).reset ≠ {} ∧ (TestFramework.testAll results {}).reset.report = -1 := by
  have hc := (C48_counts results).2.2.1
  have hpos : results.countP (· = false) > 0 := by rw [gt_iff_lt, List.countP_pos_iff]; simpa using h
  refine ⟨?_, ?_⟩
  · intro he
    have := congrArg TestFramework.failed he
    simp only [TestFramework.reset, hc] at this
    omega
  · unfold TestFramework.reset TestFramework.report
    exact if_pos (by simp only; omega)

example : TestFramework.testAll [true, false, true] {} = ⟨3, 1, 2⟩ := by decide

end Flut
