import Verif.Spec.ProfilerThreads
import Verif.Proofs.Threads
import Verif.Props.LogThreads

/-! # C129: the interrupt flag, C130: the profiler and several threads -/

namespace Flut.Threads

variable {N : Type} [DecidableEq N]

/-! ## C129 -/

theorem intProg_alone (cs : List IntCall) : ∀ b : Bool, (intProg cs).alone (fun _ => b) = (intAnswers b cs, fun _ => b || decide (IntCall.interrupt ∈ cs)) := by
  induction cs with
  | nil => intro b; simp [intProg, Prog.alone, intAnswers]
  | cons c cs ih =>
    intro b
    cases c with
    | interrupt =>
      show ((intProg cs).bind fun as => Prog.ret (none :: as)).alone (fun _ => true) = _
      rw [alone_bind', ih true]
      simp [Prog.alone, intAnswers]
    | test =>
      simp only [intProg, IntCall.run, Prog.bind, Prog.alone, alone_bind', ih b, intAnswers]
      simp

/-- With one thread the flag is down at first, and up after the first interruption and for ever. -/
theorem C129_alone (cs : List IntCall) :
    (intProg cs).alone intInit = (intAnswers false cs, fun _ => decide (IntCall.interrupt ∈ cs)) := by
  have := intProg_alone cs false
  simp only [Bool.false_or] at this
  exact this

theorem must_interrupt (cs : List IntCall) (h : IntCall.interrupt ∈ cs) : (intProg cs).Must () .write := by
  induction cs with
  | nil => cases h
  | cons c cs ih =>
    rcases List.mem_cons.1 h with rfl | h
    · exact Or.inl ⟨rfl, rfl⟩
    · exact must_bind_right _ _ fun a => must_bind_left _ _ (ih h)

theorem must_any (cs : List IntCall) (h : cs ≠ []) : (intProg cs).Must () .write ∨ (intProg cs).Must () .read := by
  cases cs with
  | nil => exact absurd rfl h
  | cons c cs =>
    cases c with
    | interrupt => exact Or.inl (Or.inl ⟨rfl, rfl⟩)
    | test => exact Or.inr (Or.inl ⟨rfl, rfl⟩)

/-- That one thread may interrupt another is false: whenever a thread that interrupts and one that asks, or interrupts, have finished, there has been a race. -/
theorem C129_other_thread_refuted (m : Unit → Bool) (cs : List (List IntCall)) (i j : Nat) (hij : i ≠ j) (c c' : List IntCall) (hi : cs[i]? = some c)
    (hj : cs[j]? = some c') (hc : IntCall.interrupt ∈ c) (hc' : c' ≠ []) (sched : List Nat) (hf : Finished ((Machine.start m (cs.map intProg)).run sched) i)
    (hf' : Finished ((Machine.start m (cs.map intProg)).run sched) j) : Race ((Machine.start m (cs.map intProg)).run sched).log := by
  obtain ⟨a, ha⟩ := hf
  obtain ⟨b, hb⟩ := hf'
  have gi : (cs.map intProg)[i]? = some (intProg c) := by rw [List.getElem?_map, hi]; rfl
  have gj : (cs.map intProg)[j]? = some (intProg c') := by rw [List.getElem?_map, hj]; rfl
  obtain ⟨x, hx, x1, -, x3⟩ := must_finished m _ i _ gi (must_interrupt c hc) sched a ha
  have hy : ∃ y ∈ ((Machine.start m (cs.map intProg)).run sched).log, y.thread = j := by
    rcases must_any c' hc' with h | h
    · obtain ⟨y, hy, y1, -⟩ := must_finished m _ j _ gj h sched b hb
      exact ⟨y, hy, y1⟩
    · obtain ⟨y, hy, y1, -⟩ := must_finished m _ j _ gj h sched b hb
      exact ⟨y, hy, y1⟩
  obtain ⟨y, hy, y1⟩ := hy
  exact ⟨x, hx, y, hy, by rw [x1, y1]; exact hij, rfl, Or.inl (by rw [x3]; decide), by rw [x3]; simp⟩

/-- Threads that only ask do not race, and are told what the flag is. -/
theorem C129_only_ask (b : Bool) (cs : List (List IntCall)) (ha : ∀ c ∈ cs, IntCall.interrupt ∉ c) (sched : List Nat) :
    let st := (Machine.start (fun _ => b) (cs.map intProg)).run sched
    ¬ Race st.log ∧ st.mem () = b ∧ ∀ (i : Nat) c as, cs[i]? = some c → st.threads[i]? = some (.ret as) → as = intAnswers b c := by
  intro st
  have hd : Split (fun (_ : Nat) (_ : Unit) => True) (fun _ _ => False) fun _ => False := ⟨fun _ _ _ _ => id, fun _ _ _ _ h => h.elim, fun _ _ h => h.elim⟩
  have uses : ∀ c : List IntCall, IntCall.interrupt ∉ c → (intProg c).UsesAt (fun _ => b) (fun _ => True) (fun _ => False) fun _ => False := by
    intro c
    induction c with
    | nil => intro _; trivial
    | cons a c ih =>
      intro h
      have h' : IntCall.interrupt ∉ c := fun hm => h (List.mem_cons_of_mem _ hm)
      cases a with
      | interrupt => exact absurd List.mem_cons_self h
      | test => exact Or.inl ⟨trivial, usesAt_bind (intProg c) (fun as => Prog.ret (some b :: as)) (ih h') fun _ => trivial⟩
  have inv := inv_run hd (fun _ => b) (cs.map intProg) (fun i p hp => by
    rw [List.getElem?_map] at hp
    cases hi : cs[i]? with
    | none => rw [hi] at hp; cases hp
    | some c =>
      rw [hi] at hp
      injection hp with hp
      subst hp
      exact uses c (ha c (List.mem_of_getElem? hi))) sched
  refine ⟨log_no_race hd inv.log (fun _ _ h => h.elim), inv.known hd 0 () trivial, fun i c as hi hf => ?_⟩
  have := (inv.same i _ (intProg c) hf (by rw [List.getElem?_map, hi]; rfl)).1
  rw [intProg_alone] at this
  exact this

-- One thread: down, interrupted, up.
example : intAnswers false [.test, .interrupt, .test, .test] = [some false, none, some true, some true] := rfl

-- A worker that asks twice, and a thread that interrupts it.
example : Race ((Machine.start intInit ([[IntCall.test, .test], [.interrupt]].map intProg)).run [0, 1, 0]).log :=
  C129_other_thread_refuted _ _ 1 0 (by decide) _ _ rfl rfl (by decide) (by decide) _ ⟨_, rfl⟩ ⟨_, rfl⟩

/-! ## C130 -/

/-- The memory with an owner and a state. -/
def profMem (owner : Option Nat) (s : Res (Profiler N)) : ProfPlace → ProfCell N
  | .owner => .owner owner
  | .state => .state s

omit [DecidableEq N] in
theorem profMem_state (owner : Option Nat) (s : Res (Profiler N)) (f : ProfCell N → ProfCell N) (s' : Res (Profiler N)) (h : f (.state s) = .state s') :
    (fun l' => if l' = ProfPlace.state then f (profMem owner s .state) else profMem owner s l') = profMem owner s' := by
  funext l
  cases l with
  | owner => rfl
  | state => exact h

theorem prof_owner_alone (totalName : N) (me : Nat) (cs : List (ProfCall N)) : ∀ s : Res (Profiler N),
    (profProg totalName me cs).alone (profMem (some me) s) =
      (cs.map fun _ => .ok (), profMem (some me) (cs.foldl (fun s c => c.sequential totalName s) s)) := by
  induction cs with
  | nil => intro s; rfl
  | cons c cs ih =>
    intro s
    cases c with
    | event e =>
      have e1 : (profMem (some me) s ProfPlace.owner).asOwner = some me := rfl
      simp only [profProg, ProfCall.run, alone_bind', Prog.alone, e1, if_true]
      rw [profMem_state (some me) s (fun c => .state (c.asState >>= fun p => p.run e)) (s >>= fun p => p.run e) rfl, ih]
      rfl
    | reset t =>
      simp only [profProg, ProfCall.run, alone_bind', Prog.alone]
      rw [profMem_state (some me) s (fun _ => .state (.ok (Profiler.reset totalName t))) (.ok (Profiler.reset totalName t)) rfl, ih]
      rfl

theorem prof_other_alone (totalName : N) (me : Nat) (owner : Option Nat) (ho : owner ≠ some me) (cs : List (ProfCall N)) (hc : ∀ c ∈ cs, c.isEvent = true)
    (s : Res (Profiler N)) :
    (profProg totalName me cs).alone (profMem owner s) = (cs.map fun _ => .throws .assertion, profMem owner s) := by
  induction cs with
  | nil => rfl
  | cons c cs ih =>
    cases c with
    | event e =>
      have e1 : (profMem owner s ProfPlace.owner).asOwner = owner := rfl
      simp only [profProg, ProfCall.run, alone_bind', Prog.alone, e1, if_neg ho]
      rw [ih fun c hm => hc c (List.mem_cons_of_mem _ hm)]
      rfl
    | reset t => exact absurd (hc _ List.mem_cons_self) (by simp [ProfCall.isEvent])

theorem prof_owner_uses (totalName : N) (me : Nat) (owner : Option Nat) (s : Res (Profiler N)) {W A : ProfPlace → Prop} (hw : W .state ∨ A .state)
    (cs : List (ProfCall N)) : (profProg totalName me cs).UsesAt (profMem owner s) (fun l => l = .owner) W A := by
  induction cs with
  | nil => trivial
  | cons c cs ih =>
    refine usesAt_bind _ _ ?_ fun a => usesAt_bind _ _ ih fun _ => trivial
    cases c with
    | event e =>
      refine Or.inl ⟨rfl, ?_⟩
      dsimp only
      split
      · exact ⟨hw, trivial⟩
      · trivial
    | reset t => exact ⟨hw, trivial⟩

theorem prof_other_uses (totalName : N) (me : Nat) (owner : Option Nat) (ho : owner ≠ some me) (s : Res (Profiler N)) {W A : ProfPlace → Prop}
    (cs : List (ProfCall N)) (hc : ∀ c ∈ cs, c.isEvent = true) : (profProg totalName me cs).UsesAt (profMem owner s) (fun l => l = .owner) W A := by
  induction cs with
  | nil => trivial
  | cons c cs ih =>
    cases c with
    | event e =>
      refine Or.inl ⟨rfl, ?_⟩
      have e1 : (profMem owner s ProfPlace.owner).asOwner = owner := rfl
      dsimp only
      rw [e1, if_neg ho]
      exact usesAt_bind (profProg totalName me cs) (fun as => Prog.ret (Res.throws Exn.assertion :: as)) (ih fun c hm => hc c (List.mem_cons_of_mem _ hm)) fun _ => trivial
    | reset t => exact absurd (hc _ List.mem_cons_self) (by simp [ProfCall.isEvent])

/-- Programs of threads, each with its number. -/
def profThreads (totalName : N) (cs : List (List (ProfCall N))) : List (Prog ProfPlace (ProfCell N) (List (Res Unit))) :=
  cs.mapIdx fun i c => profProg totalName i c

/-- If only the thread of the profiler calls `reset`, there is no race in any schedule: every call of another thread throws and changes nothing, all calls of the
owner succeed, and once it has finished the profiler is as if there had been no other threads. -/
theorem C130_guarded (totalName : N) (s : Res (Profiler N)) (owner : Nat) (cs : List (List (ProfCall N)))
    (he : ∀ (i : Nat) c, i ≠ owner → cs[i]? = some c → ∀ x ∈ c, x.isEvent = true) (sched : List Nat) :
    let st := (Machine.start (profMem (some owner) s) (profThreads totalName cs)).run sched
    ¬ Race st.log ∧
      (∀ (i : Nat) c as, i ≠ owner → cs[i]? = some c → st.threads[i]? = some (.ret as) → as = c.map fun _ => .throws .assertion) ∧
      (cs.length ≤ owner → st.mem .state = .state s) ∧
      ∀ c as, cs[owner]? = some c → st.threads[owner]? = some (.ret as) →
        as = (c.map fun _ => .ok ()) ∧ st.mem .state = .state (c.foldl (fun s x => x.sequential totalName s) s) := by
  intro st
  let W : Nat → ProfPlace → Prop := fun i l => i = owner ∧ l = .state
  have hd : Split (fun _ l => l = ProfPlace.owner) W fun _ => False :=
    ⟨fun i j l hl hw => by { have := hw.2; rw [hl] at this; cases this }, fun i j hij l hi hj => hij (hi.1.trans hj.1.symm), fun _ _ h => h.elim⟩
  have hget : ∀ (i : Nat) c, cs[i]? = some c → (profThreads totalName cs)[i]? = some (profProg totalName i c) := by
    intro i c hi
    simp [profThreads, List.getElem?_mapIdx, hi]
  have inv := inv_run hd (profMem (some owner) s) (profThreads totalName cs) (fun i p hp => by
    cases hi : cs[i]? with
    | none => simp [profThreads, List.getElem?_mapIdx, hi] at hp
    | some c =>
      rw [hget i c hi] at hp
      injection hp with hp
      subst hp
      by_cases ho : i = owner
      · exact prof_owner_uses totalName i (some owner) s (Or.inl ⟨ho, rfl⟩) c
      · exact prof_other_uses totalName i (some owner) (fun e => ho (by injection e with e; exact e.symm)) s c (he i c ho hi)) sched
  refine ⟨log_no_race hd inv.log (fun _ _ h => h.elim), fun i c as ho hi hf => ?_, fun hl => ?_, fun c as hi hf => ?_⟩
  · have := (inv.same i _ _ hf (hget i c hi)).1
    rw [prof_other_alone totalName i (some owner) (fun e => ho (by injection e with e; exact e.symm)) c (he i c ho hi)] at this
    exact this
  · refine inv.rest .state (fun i hlt hw => ?_) id
    have : i < cs.length := by simpa [profThreads] using hlt
    have := hw.1
    omega
  · obtain ⟨h1, h2, -⟩ := inv.same owner _ _ hf (hget owner c hi)
    rw [prof_owner_alone totalName owner c] at h1 h2
    exact ⟨h1, h2 .state (Or.inr ⟨rfl, rfl⟩)⟩

/-- That only the thread of the profiler can change it is false: `reset` works in every thread. When a thread that resets the profiler and its owner, or two that
reset it, have finished, there has been a race. -/
theorem C130_reset_refuted (totalName : N) (s : Res (Profiler N)) (owner : Nat) (cs : List (List (ProfCall N))) (i j : Nat) (hij : i ≠ j) (c c' : List (ProfCall N))
    (hi : cs[i]? = some c) (hj : cs[j]? = some c') (t : Int) (hc : .reset t ∈ c) (hc' : (j = owner ∧ c' ≠ []) ∨ ∃ t', .reset t' ∈ c') (sched : List Nat)
    (hf : Finished ((Machine.start (profMem (some owner) s) (profThreads totalName cs)).run sched) i)
    (hf' : Finished ((Machine.start (profMem (some owner) s) (profThreads totalName cs)).run sched) j) :
    Race ((Machine.start (profMem (some owner) s) (profThreads totalName cs)).run sched).log := by
  have hget : ∀ (i : Nat) c, cs[i]? = some c → (profThreads totalName cs)[i]? = some (profProg totalName i c) := by
    intro i c hi
    simp [profThreads, List.getElem?_mapIdx, hi]
  have hm : ∀ (i : Nat) (c : List (ProfCall N)), (∃ t, .reset t ∈ c) → (profProg totalName i c).Must .state .write := by
    intro i c
    induction c with
    | nil => rintro ⟨t, h⟩; cases h
    | cons x c ih =>
      rintro ⟨t, h⟩
      rcases List.mem_cons.1 h with rfl | h
      · exact Or.inl ⟨rfl, rfl⟩
      · exact must_bind_right _ _ fun a => must_bind_left _ _ (ih ⟨t, h⟩)
  obtain ⟨a, ha⟩ := hf
  obtain ⟨b, hb⟩ := hf'
  obtain ⟨x, hx, x1, x2, x3⟩ := must_finished _ _ i _ (hget i c hi) (hm i c ⟨t, hc⟩) sched a ha
  have hy : ∃ y ∈ ((Machine.start (profMem (some owner) s) (profThreads totalName cs)).run sched).log, y.thread = j ∧ y.loc = .state ∧ y.kind = .write := by
    rcases hc' with ⟨rfl, hne⟩ | hr
    · have hd : Split (fun (_ : Nat) l => l = ProfPlace.owner) (fun _ _ => False) fun l => l = .state :=
        ⟨fun _ _ _ _ => id, fun _ _ _ _ h => h.elim, fun _ l hl => ⟨fun h => by { rw [hl] at h; cases h }, id⟩⟩
      have inv := inv_run hd (profMem (some j) s) (profThreads totalName cs) (fun i p hp => by
        cases hi : cs[i]? with
        | none => simp [profThreads, List.getElem?_mapIdx, hi] at hp
        | some c =>
          rw [hget i c hi] at hp
          injection hp with hp
          subst hp
          exact prof_owner_uses (W := fun _ => False) (A := fun l => l = .state) totalName i (some j) s (Or.inr rfl) c) sched
      have e := (inv.same j _ _ hb (hget j c' hj)).2.2
      simp only [Prog.trace, List.append_nil] at e
      refine mem_ofThread j _ _ _ ?_
      rw [e]
      cases c' with
      | nil => exact absurd rfl hne
      | cons x c' =>
        simp only [profProg, trace_bind]
        refine List.mem_append_left _ ?_
        cases x with
        | event e =>
          have e1 : (profMem (some j) s ProfPlace.owner).asOwner = some j := rfl
          simp [ProfCall.run, Prog.trace, e1]
        | reset t => simp [ProfCall.run, Prog.trace]
    · exact must_finished _ _ j _ (hget j c' hj) (hm j c' hr) sched b hb
  obtain ⟨y, hy, y1, y2, y3⟩ := hy
  exact ⟨x, hx, y, hy, by rw [x1, y1]; exact hij, by rw [x2, y2], Or.inl (by rw [x3]; decide), by rw [x3]; simp⟩

/-- That the main thread can use the profiler is false if the standard library does not initialise a thread identifier before the program starts: the identifier
is defined behind the profiler, so it is reset to "no thread" after the constructor has set it, and then every call in every thread throws. With initialisation
before the start it belongs to the main thread, and its calls do what they do without threads. -/
theorem C130_static_order_refuted (totalName : N) (main me : Nat) (t : Int) (cs : List (ProfCall N)) (hc : ∀ c ∈ cs, c.isEvent = true) :
    (profProg totalName me cs).alone (profInit false totalName main t) = (cs.map fun _ => .throws .assertion, profInit false totalName main t) ∧
      ((profProg totalName main cs).alone (profInit true totalName main t)).1 = (cs.map fun _ => .ok ()) ∧
      ((profProg totalName main cs).alone (profInit true totalName main t)).2 .state =
        .state (cs.foldl (fun s c => c.sequential totalName s) (.ok (Profiler.reset totalName t))) := by
  have e1 : profInit false totalName main t = profMem none (.ok (Profiler.reset totalName t)) := by funext l; cases l <;> rfl
  have e2 : profInit true totalName main t = profMem (some main) (.ok (Profiler.reset totalName t)) := by funext l; cases l <;> rfl
  rw [e1, e2, prof_other_alone totalName me none (by simp) cs hc, prof_owner_alone]
  exact ⟨rfl, rfl, rfl⟩

-- The owner measures a section, another thread tries to.
example : let cs : List (List (ProfCall Nat)) := [[.event (.start 7 1 2), .event (.stop 5)], [.event (.start 8 3 4)]]
    (∀ (i : Nat) c, i ≠ 0 → cs[i]? = some c → ∀ x ∈ c, x.isEvent = true) ∧
    let st := (Machine.start (profInit true 0 0 0) (profThreads 0 cs)).run [0, 1, 0, 0, 0]
    (match st.threads[1]?, st.mem .state with
      | some (Prog.ret [Res.throws _]), .state (.ok p) => decide (p.sections.map (fun s => (s.name, s.total)) = [(0, 0), (7, 4)])
      | _, _ => false) = true := by
  refine ⟨fun i c hi hc x hx => ?_, by decide +kernel⟩
  match i, hc with
  | 0, _ => exact absurd rfl hi
  | 1, hc =>
    injection hc with hc
    subst hc
    rw [List.mem_singleton.1 hx]
    rfl
  | n + 2, hc => simp at hc

-- Another thread resets it.
example : Race ((Machine.start (profMem (some 0) (.ok (Profiler.reset 0 0))) (profThreads 0 [[.event (.start 7 1 2)], [.reset 3]])).run [0, 1, 0]).log :=
  C130_reset_refuted 0 _ 0 _ 1 0 (by decide) _ _ rfl rfl 3 (List.mem_singleton.2 rfl) (Or.inl ⟨rfl, by simp⟩) _ ⟨_, rfl⟩ ⟨_, rfl⟩

end Flut.Threads
