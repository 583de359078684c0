import Verif.Spec.ObjectThreads
import Verif.Proofs.ObjectThreads
import Verif.Props.Threads

/-! # C165: objects that are used by several threads -/

namespace Flut.Threads

variable {A R : Type} [DecidableEq A] [DecidableEq R]

omit [DecidableEq R] in
theorem lookup_none {a : A} {m : List (A × R)} : Memoize.lookup a m = none ↔ ∀ r, (a, r) ∉ m := by
  induction m with
  | nil => simp [Memoize.lookup]
  | cons x m ih =>
    obtain ⟨k, q⟩ := x
    by_cases h : k = a
    · subst h
      simp only [Memoize.lookup, if_true, reduceCtorEq, List.mem_cons, Prod.mk.injEq, true_and, not_or, false_iff, not_forall]
      exact ⟨q, fun h => h.1 rfl⟩
    · simp only [Memoize.lookup, if_neg h, ih, List.mem_cons, Prod.mk.injEq, not_or]
      exact ⟨fun g r => ⟨fun e => h e.1.symm, g r⟩, fun g r => (g r).2⟩

omit [DecidableEq R] in
theorem looks_lookup {a : A} {m : List (A × R)} (h : ∃ r, (a, r) ∈ m) : ∃ r, Memoize.lookup a m = some r := by
  cases e : Memoize.lookup a m with
  | some r => exact ⟨r, rfl⟩
  | none => obtain ⟨r, h⟩ := h; exact absurd h (lookup_none.1 e r)

theorem putObj_self (m : ObjPlace → ObjCell A R) (p : ObjPlace) : putObj m p (m p) = m := by
  funext q
  by_cases h : q = p
  · subst h; simp [putObj]
  · simp [putObj, h]

/-- Alone, the accesses of a call do what the model without threads says. -/
theorem objCall_alone (f : Nat → A → R) (c : ObjCall A R) (m : ObjPlace → ObjCell A R) : (c.run f).alone m = c.sequential f m := by
  cases c with
  | memo n a =>
    simp only [ObjCall.run, ObjCall.sequential, Prog.alone, Memoize.call]
    cases h : Memoize.lookup a (m (.memo n)).memo with
    | none => simp only [Prog.alone, memoSet, h]; rfl
    | some r => simp only [Prog.alone]; rw [putObj_self]
  | uni n g lo hi => rfl
  | seed n s => rfl
  | register n name creator => rfl
  | create n name args => rfl
  | hasType n name => rfl
  | nameOf n e => rfl
  | element n name => rfl

theorem objClient_alone (f : Nat → A → R) (c : ObjClient A R) : ∀ m, (c.prog f).alone m = c.sequential f m := by
  induction c with
  | done => intro m; rfl
  | call c next ih =>
    intro m
    simp only [ObjClient.prog, ObjClient.sequential, alone_bind, objCall_alone, ih, Prog.alone]

/-- A thread may write its own objects and read those of nobody. -/
theorem objCall_uses (f : Nat → A → R) (owner : ObjPlace → Option Nat) (m : ObjPlace → ObjCell A R) (i : Nat) (c : ObjCall A R)
    (h : owner c.place = some i ∨ (owner c.place = none ∧ c.Looks (m c.place))) :
    (c.run f).UsesAt m (fun p => owner p = none) (fun p => owner p = some i) (fun _ => False) := by
  cases c with
  | memo n a =>
    rcases h with h | ⟨h1, h2⟩
    · refine Or.inr ⟨h, fun v => ?_⟩
      dsimp only
      cases e : Memoize.lookup a v.memo with
      | none => exact ⟨Or.inl h, trivial⟩
      | some r => trivial
    · obtain ⟨r, hr⟩ := looks_lookup h2
      refine Or.inl ⟨h1, ?_⟩
      simp only [ObjCall.place] at hr
      simp only [hr]
      trivial
  | uni n g lo hi =>
    rcases h with h | ⟨-, h⟩
    · exact Or.inr ⟨h, fun v => ⟨h, trivial⟩⟩
    · exact h.elim
  | seed n s =>
    rcases h with h | ⟨-, h⟩
    · exact ⟨Or.inl h, trivial⟩
    · exact h.elim
  | register n name creator =>
    rcases h with h | ⟨-, h⟩
    · exact ⟨Or.inl h, trivial⟩
    · exact h.elim
  | create n name args => exact h.elim (fun h => Or.inr ⟨h, fun _ => trivial⟩) fun h => Or.inl ⟨h.1, trivial⟩
  | hasType n name => exact h.elim (fun h => Or.inr ⟨h, fun _ => trivial⟩) fun h => Or.inl ⟨h.1, trivial⟩
  | nameOf n e => exact h.elim (fun h => Or.inr ⟨h, fun _ => trivial⟩) fun h => Or.inl ⟨h.1, trivial⟩
  | element n name => exact h.elim (fun h => Or.inr ⟨h, fun _ => trivial⟩) fun h => Or.inl ⟨h.1, trivial⟩

theorem objClient_uses (f : Nat → A → R) (owner : ObjPlace → Option Nat) (m : ObjPlace → ObjCell A R) (i : Nat) (c : ObjClient A R) (h : c.Keeps owner m i) :
    (c.prog f).UsesAt m (fun p => owner p = none) (fun p => owner p = some i) (fun _ => False) := by
  induction c with
  | done => trivial
  | call c next ih => exact usesAt_bind _ _ (objCall_uses f owner m i c h.1) fun a => usesAt_bind _ _ (ih a (h.2 a)) fun _ => trivial

/-- Threads that keep to objects of their own, and only look at others that nobody changes, do not race. What nobody owns stays as it is, and each thread is told
what it would be told, and leaves its objects as it would leave them, if it were alone. -/
theorem C165_apart (f : Nat → A → R) (owner : ObjPlace → Option Nat) (m : ObjPlace → ObjCell A R) (cs : List (ObjClient A R))
    (h : ∀ (i : Nat) c, cs[i]? = some c → c.Keeps owner m i) (sched : List Nat) :
    let st := (Machine.start m (cs.map (·.prog f))).run sched
    ¬ Race st.log ∧ (∀ p, owner p = none → st.mem p = m p) ∧
      ∀ (i : Nat) c as, cs[i]? = some c → st.threads[i]? = some (.ret as) →
        as = (c.sequential f m).1 ∧ ∀ p, owner p = some i → st.mem p = (c.sequential f m).2 p := by
  intro st
  have hd : Split (fun (_ : Nat) p => owner p = none) (fun i p => owner p = some i) fun _ => False := by
    refine ⟨fun i j l h1 h2 => ?_, fun i j hij l h1 h2 => ?_, fun _ _ h => h.elim⟩
    · rw [h1] at h2; cases h2
    · rw [h1] at h2; exact hij (by simpa using h2)
  have inv := inv_run hd m (cs.map (·.prog f)) (fun i p hp => by
    rw [List.getElem?_map] at hp
    cases hi : cs[i]? with
    | none => rw [hi] at hp; cases hp
    | some c =>
      rw [hi] at hp
      injection hp with hp
      subst hp
      exact objClient_uses f owner m i c (h i c hi)) sched
  refine ⟨log_no_race hd inv.log (fun _ _ h => h.elim), fun p hp => inv.known hd 0 p hp, fun i c as hi hf => ?_⟩
  obtain ⟨h1, h2, -⟩ := inv.same i _ (c.prog f) hf (by rw [List.getElem?_map, hi]; rfl)
  rw [objClient_alone] at h1 h2
  exact ⟨h1, fun p hp => h2 p (Or.inr hp)⟩

/-- What a thread is told depends neither on the schedule nor on what the other threads do. -/
theorem C165_reproducible (f : Nat → A → R) (owner owner' : ObjPlace → Option Nat) (m : ObjPlace → ObjCell A R) (cs cs' : List (ObjClient A R))
    (h : ∀ (i : Nat) c, cs[i]? = some c → c.Keeps owner m i) (h' : ∀ (i : Nat) c, cs'[i]? = some c → c.Keeps owner' m i) (sched sched' : List Nat)
    (i j : Nat) (c : ObjClient A R) (hi : cs[i]? = some c) (hj : cs'[j]? = some c) (as as' : List (ObjAns R))
    (ha : ((Machine.start m (cs.map (·.prog f))).run sched).threads[i]? = some (.ret as))
    (ha' : ((Machine.start m (cs'.map (·.prog f))).run sched').threads[j]? = some (.ret as')) : as = as' :=
  ((C165_apart f owner m cs h sched).2.2 i c as hi ha).1.trans ((C165_apart f owner' m cs' h' sched').2.2 j c as' hj ha').1.symm

theorem sound_lookup {f : Nat → A → R} {m : ObjPlace → ObjCell A R} (h : MemoSound f m) (n : Nat) (a : A) (r : R)
    (e : Memoize.lookup a (m (.memo n)).memo = some r) : r = f n a := by
  have key : ∀ l : List (A × R), Memoize.lookup a l = some r → (a, r) ∈ l := by
    intro l
    induction l with
    | nil => intro h; cases h
    | cons x l ih =>
      intro h
      simp only [Memoize.lookup] at h
      split_ifs at h with h1
      · injection h with h; subst h; subst h1; exact List.mem_cons_self
      · exact List.mem_cons_of_mem _ (ih h)
  exact h n (a, r) (key _ e)

theorem sequential_memo {f : Nat → A → R} {m : ObjPlace → ObjCell A R} (h : MemoSound f m) (n : Nat) (a : A) :
    (ObjCall.sequential f m (.memo n a)).1 = .result (.ok (f n a)) := by
  simp only [ObjCall.sequential, Memoize.call]
  cases e : Memoize.lookup a (m (.memo n)).memo with
  | none => rfl
  | some r => rw [sound_lookup h n a r e]

theorem sequential_sound {f : Nat → A → R} {m : ObjPlace → ObjCell A R} (h : MemoSound f m) (c : ObjCall A R) : MemoSound f (c.sequential f m).2 := by
  cases c with
  | memo n a =>
    intro k x hx
    simp only [ObjCall.sequential, Memoize.call, putObj] at hx
    by_cases e : k = n
    · subst e
      simp only [if_true] at hx
      cases e : Memoize.lookup a (m (.memo k)).memo with
      | none =>
        rw [e] at hx
        rcases List.mem_cons.1 hx with rfl | hx
        · rfl
        · exact h k x hx
      | some r => rw [e] at hx; exact h k x hx
    · rw [if_neg (by simpa using e)] at hx
      exact h k x hx
  | uni n g lo hi => exact fun k x hx => h k x (by simpa [ObjCall.sequential, putObj] using hx)
  | seed n s => exact fun k x hx => h k x (by simpa [ObjCall.sequential, putObj] using hx)
  | register n name creator => exact fun k x hx => h k x (by simpa [ObjCall.sequential, putObj] using hx)
  | create n name args => exact h
  | hasType n name => exact h
  | nameOf n e => exact h
  | element n name => exact h

theorem sequential_values {f : Nat → A → R} (c : ObjClient A R) : ∀ {m : ObjPlace → ObjCell A R}, MemoSound f m → c.ToldValues f (c.sequential f m).1 := by
  induction c with
  | done => intro m _; rfl
  | call c next ih =>
    intro m h
    have hs := sequential_sound h c
    cases c with
    | memo n a =>
      refine ⟨_, ?_, ih _ hs⟩
      simp only [ObjClient.sequential, sequential_memo h]
    | _ => exact ⟨_, _, rfl, ih _ hs⟩

/-- Such threads get the values of the functions from `memoize`. -/
theorem C165_values (f : Nat → A → R) (owner : ObjPlace → Option Nat) (m : ObjPlace → ObjCell A R) (hm : MemoSound f m) (cs : List (ObjClient A R))
    (h : ∀ (i : Nat) c, cs[i]? = some c → c.Keeps owner m i) (sched : List Nat) (i : Nat) (c : ObjClient A R) (hi : cs[i]? = some c) (as : List (ObjAns R))
    (ha : ((Machine.start m (cs.map (·.prog f))).run sched).threads[i]? = some (.ret as)) : c.ToldValues f as := by
  rw [((C165_apart f owner m cs h sched).2.2 i c as hi ha).1]
  exact sequential_values c hm

/-- What is remembered after a call: what was remembered before, and the arguments with which a function was called. -/
theorem remembered (f : Nat → A → R) (m : ObjPlace → ObjCell A R) (c : ObjCall A R) (n : Nat) (a : A) :
    (∃ r, (a, r) ∈ ((c.sequential f m).2 (.memo n)).memo) ↔ ((n, a) ∈ c.evaluates f m ∨ ∃ r, (a, r) ∈ (m (.memo n)).memo) := by
  cases c with
  | memo k b =>
    simp only [ObjCall.sequential, ObjCall.evaluates, Memoize.call, putObj]
    cases e : Memoize.lookup b (m (.memo k)).memo with
    | some r =>
      simp only [List.map_nil, List.not_mem_nil, false_or]
      by_cases h : n = k
      · subst h; simp
      · rw [if_neg (by simpa using h)]
    | none =>
      simp only [List.nil_append, List.map_cons, List.map_nil, List.mem_singleton, Prod.mk.injEq]
      by_cases h : n = k
      · subst h
        simp only [if_true, true_and, List.mem_cons, Prod.mk.injEq]
        constructor
        · rintro ⟨r, h | h⟩
          · exact Or.inl h.1
          · exact Or.inr ⟨r, h⟩
        · rintro (h | ⟨r, h⟩)
          · exact ⟨_, Or.inl ⟨h, rfl⟩⟩
          · exact ⟨r, Or.inr h⟩
      · rw [if_neg (by simpa using h)]
        simp [h]
  | uni k g lo hi => simp [ObjCall.sequential, ObjCall.evaluates, putObj]
  | seed k s => simp [ObjCall.sequential, ObjCall.evaluates, putObj]
  | register k name creator => simp [ObjCall.sequential, ObjCall.evaluates, putObj]
  | create k name args => simp [ObjCall.sequential, ObjCall.evaluates]
  | hasType k name => simp [ObjCall.sequential, ObjCall.evaluates]
  | nameOf k e => simp [ObjCall.sequential, ObjCall.evaluates]
  | element k name => simp [ObjCall.sequential, ObjCall.evaluates]

/-- A call makes at most one call of a function, with an argument that was not remembered. -/
theorem evaluates_new (f : Nat → A → R) (m : ObjPlace → ObjCell A R) (c : ObjCall A R) :
    (c.evaluates f m).Nodup ∧ ∀ x ∈ c.evaluates f m, ∀ r, (x.2, r) ∉ (m (.memo x.1)).memo := by
  cases c with
  | memo k b =>
    simp only [ObjCall.evaluates, Memoize.call]
    cases e : Memoize.lookup b (m (.memo k)).memo with
    | some r => simp
    | none =>
      refine ⟨by simp, fun x hx r => ?_⟩
      simp only [List.nil_append, List.map_cons, List.map_nil, List.mem_singleton] at hx
      subst hx
      exact lookup_none.1 e r
  | _ => exact ⟨List.nodup_nil, fun x hx => by cases hx⟩

theorem memo_remembered (f : Nat → A → R) (m : ObjPlace → ObjCell A R) (n : Nat) (a : A) :
    ∃ r, (a, r) ∈ ((ObjCall.sequential f m (.memo n a)).2 (.memo n)).memo := by
  rw [remembered]
  by_cases h : ∃ r, (a, r) ∈ (m (.memo n)).memo
  · exact Or.inr h
  · refine Or.inl ?_
    have e : Memoize.lookup a (m (.memo n)).memo = none := lookup_none.2 fun r hr => h ⟨r, hr⟩
    simp [ObjCall.evaluates, Memoize.call, e]

/-- The memory after some calls. -/
abbrev memAfter (f : Nat → A → R) (m : ObjPlace → ObjCell A R) (done : List (Nat × ObjCall A R × ObjAns R)) : ObjPlace → ObjCell A R :=
  (done.map fun d => d.2.1).foldl (fun m c => (c.sequential f m).2) m

/-- The invariant of threads with a lock. -/
structure LockedInv (f : Nat → A → R) (m : ObjPlace → ObjCell A R) (s : Locked A R) : Prop where
  sound : MemoSound f s.mem
  nodup : s.evaluated.Nodup
  known : ∀ n a, (∃ r, (a, r) ∈ (s.mem (.memo n)).memo) ↔ ((n, a) ∈ s.evaluated ∨ ∃ r, (a, r) ∈ (m (.memo n)).memo)
  new : ∀ x ∈ s.evaluated, ∀ r, (x.2, r) ∉ (m (.memo x.1)).memo
  told : ∀ i n a x, (i, .memo n a, x) ∈ s.done → x = .result (.ok (f n a)) ∧ ∃ r, (a, r) ∈ (s.mem (.memo n)).memo
  after : memAfter f m s.done = s.mem
  answers : ∀ before i c x after, s.done = before ++ (i, c, x) :: after → x = (c.sequential f (memAfter f m before)).1

theorem lockedInv_step {f : Nat → A → R} {m : ObjPlace → ObjCell A R} {s : Locked A R} (h : LockedInv f m s) (i : Nat) : LockedInv f m (s.step f i) := by
  unfold Locked.step
  split
  case h_2 => exact h
  case h_1 c next hc =>
    have hn := evaluates_new f s.mem c
    refine ⟨sequential_sound h.sound c, ?_, fun n a => ?_, fun x hx r hr => ?_, fun j n a x hx => ?_, ?_, fun before j d x after e => ?_⟩
    · refine List.nodup_append.2 ⟨h.nodup, hn.1, fun x hx y hy e => ?_⟩
      subst e
      obtain ⟨r, hr⟩ := (h.known x.1 x.2).2 (Or.inl hx)
      exact hn.2 x hy r hr
    · rw [remembered, h.known, List.mem_append]
      tauto
    · rcases List.mem_append.1 hx with hx | hx
      · exact h.new x hx r hr
      · obtain ⟨q, hq⟩ := (h.known x.1 x.2).2 (Or.inr ⟨r, hr⟩)
        exact hn.2 x hx q hq
    · rcases List.mem_append.1 hx with hx | hx
      · obtain ⟨h1, h2⟩ := h.told j n a x hx
        exact ⟨h1, (remembered f s.mem c n a).2 (Or.inr h2)⟩
      · obtain ⟨rfl, rfl, rfl⟩ : j = i ∧ ObjCall.memo n a = c ∧ x = (c.sequential f s.mem).1 := by simpa using hx
        exact ⟨sequential_memo h.sound n a, memo_remembered f s.mem n a⟩
    · have := h.after
      simp only [memAfter, List.map_append, List.foldl_append] at this ⊢
      rw [this]
      rfl
    · rcases List.eq_nil_or_concat after with rfl | ⟨t, y, rfl⟩
      · obtain ⟨rfl, e⟩ := List.append_inj' e rfl
        obtain ⟨rfl, rfl, rfl⟩ : i = j ∧ c = d ∧ (c.sequential f s.mem).1 = x := by simpa using e
        rw [h.after]
      · have e' : s.done ++ [(i, c, (c.sequential f s.mem).1)] = (before ++ (j, d, x) :: t) ++ [y] := by
          refine Eq.trans e ?_
          simp
        exact h.answers before j d x t (List.append_inj' e' rfl).1

/-- With a lock around every call, whatever the calls, the threads and the schedule: no memoized function is called twice with the same argument, or with one that
was remembered at the beginning; `memoize` gives the values of the functions; and all answers are those that the calls get in the order in which they happen. -/
theorem C165_locked (f : Nat → A → R) (m : ObjPlace → ObjCell A R) (hm : MemoSound f m) (cs : List (ObjClient A R)) (sched : List Nat) :
    let s := Locked.run f ⟨m, cs, [], []⟩ sched
    s.evaluated.Nodup ∧ (∀ x ∈ s.evaluated, ∀ r, (x.2, r) ∉ (m (.memo x.1)).memo) ∧
      (∀ i n a x, (i, .memo n a, x) ∈ s.done → x = .result (.ok (f n a)) ∧ ((n, a) ∈ s.evaluated ∨ ∃ r, (a, r) ∈ (m (.memo n)).memo)) ∧
      (s.done.map fun d => d.2.1).foldl (fun m c => (c.sequential f m).2) m = s.mem ∧
      ∀ before i c x after, s.done = before ++ (i, c, x) :: after →
        x = (c.sequential f ((before.map fun d => d.2.1).foldl (fun m c => (c.sequential f m).2) m)).1 := by
  intro s
  have inv : LockedInv f m s := by
    have h0 : LockedInv f m ⟨m, cs, [], []⟩ :=
      ⟨hm, List.nodup_nil, fun n a => by simp, fun x hx => by simp at hx, fun i n a x hx => by simp at hx, rfl, fun before i c x after e => by simp at e⟩
    show LockedInv f m (Locked.run f _ sched)
    generalize (⟨m, cs, [], []⟩ : Locked A R) = s0 at h0
    induction sched generalizing s0 with
    | nil => exact h0
    | cons i is ih => exact ih _ (lockedInv_step h0 i)
  exact ⟨inv.nodup, inv.new, fun i n a x hx => ⟨(inv.told i n a x hx).1, (inv.known n a).1 (inv.told i n a x hx).2⟩, inv.after, inv.answers⟩

theorem objCall_touches (f : Nat → A → R) (c : ObjCall A R) : (c.run f).Touches c.place := by
  cases c <;> first | exact Or.inl rfl | exact Or.inl ⟨rfl, rfl⟩

theorem objCall_changes (f : Nat → A → R) (c : ObjCall A R) (v : ObjCell A R) (h : ¬ c.Looks v) : (c.run f).Changes c.place v := by
  cases c with
  | memo n a =>
    have e : Memoize.lookup a v.memo = none := lookup_none.2 fun r hr => h ⟨r, hr⟩
    refine Or.inl ⟨rfl, ?_⟩
    simp only [e]
    exact Or.inl rfl
  | uni n g lo hi => exact Or.inl ⟨rfl, Or.inl rfl⟩
  | seed n s => exact Or.inl rfl
  | register n name creator => exact Or.inl rfl
  | create n name args => exact absurd trivial h
  | hasType n name => exact absurd trivial h
  | nameOf n e => exact absurd trivial h
  | element n name => exact absurd trivial h

theorem objClient_touches (f : Nat → A → R) (c : ObjClient A R) (p : ObjPlace) (h : c.Makes fun x => x.place = p) : (c.prog f).Touches p := by
  induction c with
  | done => exact h.elim
  | call c next ih =>
    rcases h with h | h
    · exact touches_left _ _ (h ▸ objCall_touches f c)
    · exact touches_right _ _ fun a => touches_left _ _ (ih a (h a))

theorem objClient_changes (f : Nat → A → R) (c : ObjClient A R) (p : ObjPlace) (v : ObjCell A R) (h : c.Makes fun x => x.place = p ∧ ¬ x.Looks v) :
    (c.prog f).Changes p v := by
  induction c with
  | done => exact h.elim
  | call c next ih =>
    rcases h with ⟨rfl, h⟩ | h
    · exact changes_left _ _ (objCall_changes f c v h)
    · exact changes_right _ _ fun a => changes_left _ _ (ih a (h a))

omit [DecidableEq A] [DecidableEq R] in
theorem makes_mono {P Q : ObjCall A R → Prop} (hPQ : ∀ c, P c → Q c) (c : ObjClient A R) (h : c.Makes P) : c.Makes Q := by
  induction c with
  | done => exact h
  | call c next ih => exact h.imp (hPQ c) fun h a => ih a (h a)

/-- That is all that threads can share: if a thread makes a call that is more than looking at an object as it is at the beginning, and another one makes any call of
that object, then there has been a race when both have finished, whatever the schedule. -/
theorem C165_shared_refuted (f : Nat → A → R) (m : ObjPlace → ObjCell A R) (cs : List (ObjClient A R)) (i j : Nat) (hij : i ≠ j) (c c' : ObjClient A R)
    (hi : cs[i]? = some c) (hj : cs[j]? = some c') (p : ObjPlace) (hc : c.Makes fun x => x.place = p ∧ ¬ x.Looks (m p)) (hc' : c'.Makes fun x => x.place = p)
    (sched : List Nat) (hf : Finished ((Machine.start m (cs.map (·.prog f))).run sched) i)
    (hf' : Finished ((Machine.start m (cs.map (·.prog f))).run sched) j) :
    Race ((Machine.start m (cs.map (·.prog f))).run sched).log := by
  obtain ⟨a, ha⟩ := hf
  obtain ⟨b, hb⟩ := hf'
  exact race_finished m _ i j hij (c.prog f) (c'.prog f) (by rw [List.getElem?_map, hi]; rfl) (by rw [List.getElem?_map, hj]; rfl)
    (objClient_changes f c p (m p) hc) (objClient_touches f c p (makes_mono (fun _ h => h.1) c hc)) (objClient_touches f c' p hc') sched a b ha hb

/-! ## Examples -/

/-- Squares. -/
def squares : Nat → Nat → Nat := fun _ a => a * a

/-- A generator each for threads 0 and 1; a factory and a memory of the square of 3 for both. -/
def sampleObjects : ObjPlace → ObjCell Nat Nat
  | .memo 0 => { memo := [(3, 9)] }
  | .generator 0 => { generator := Random.seed 5 }
  | .generator 1 => { generator := Random.seed 6 }
  | .factory 0 => { factory := [(b!"twice", fun a => 2 * a)] }
  | _ => {}

def sampleOwner : ObjPlace → Option Nat
  | .generator 0 => some 0
  | .generator 1 => some 1
  | _ => none

/-- A thread that draws from its own generator, uses the memory and creates something if the type is there. -/
def sampleThread (i : Nat) : ObjClient Nat Nat :=
  .call (.uni i .single (.fin false 0) (.fin false 1)) fun _ => .call (.memo 0 3) fun _ => .call (.hasType 0 b!"twice") fun
    | .bool true => .call (.create 0 b!"twice" 4) fun _ => .done
    | _ => .done

theorem sampleThread_keeps (i : Nat) (h : i = 0 ∨ i = 1) : (sampleThread i).Keeps sampleOwner sampleObjects i := by
  refine ⟨Or.inl ?_, fun _ => ⟨Or.inr ⟨rfl, 9, List.mem_singleton.2 rfl⟩, fun _ => ⟨Or.inr ⟨rfl, trivial⟩, fun a => ?_⟩⟩⟩
  · rcases h with rfl | rfl <;> rfl
  · dsimp only
    split
    · exact ⟨Or.inr ⟨rfl, trivial⟩, fun _ => trivial⟩
    · trivial

theorem sampleObjects_sound : MemoSound squares sampleObjects := by
  intro n x hx
  cases n with
  | zero => rw [List.mem_singleton.1 hx]; rfl
  | succ n => cases hx

-- Two such threads do not race, and are told the values.
example (sched : List Nat) : ¬ Race ((Machine.start sampleObjects ([sampleThread 0, sampleThread 1].map (·.prog squares))).run sched).log :=
  (C165_apart squares sampleOwner sampleObjects [sampleThread 0, sampleThread 1] (by
    intro i c hi
    match i, hi with
    | 0, hi => injection hi with hi; subst hi; exact sampleThread_keeps 0 (Or.inl rfl)
    | 1, hi => injection hi with hi; subst hi; exact sampleThread_keeps 1 (Or.inr rfl)) sched).1

-- They do finish.
example : Finished ((Machine.start sampleObjects ([sampleThread 0, sampleThread 1].map (·.prog squares))).run [0, 1, 1, 0, 1, 0, 0, 1, 1, 0]) 0 := ⟨_, rfl⟩

-- Two threads that ask for the square of 4 for the first time race, even if one is done before the other begins.
example : Race ((Machine.start sampleObjects (([[.memo 0 4], [.memo 0 4]].map ObjClient.ofList).map (·.prog squares))).run [0, 0, 1]).log :=
  C165_shared_refuted squares sampleObjects _ 0 1 (by decide) _ _ rfl rfl (.memo 0)
    (by refine Or.inl ⟨rfl, ?_⟩; rintro ⟨r, h⟩; have := List.mem_singleton.1 h; simp at this) (by exact Or.inl rfl) _ ⟨_, rfl⟩ ⟨_, rfl⟩

-- So do two threads that draw numbers from the same generator.
example : Race ((Machine.start sampleObjects (([[.uni 0 .single (.fin false 0) (.fin false 1)], [.uni 0 .single (.fin false 0) (.fin false 1)]].map
    ObjClient.ofList).map (·.prog squares))).run [0, 1, 0, 1]).log :=
  C165_shared_refuted squares sampleObjects _ 0 1 (by decide) _ _ rfl rfl (.generator 0) (by exact Or.inl ⟨rfl, id⟩) (by exact Or.inl rfl) _ ⟨_, rfl⟩ ⟨_, rfl⟩

-- And one that registers a class while another creates an object.
example : Race ((Machine.start sampleObjects (([[.create 0 b!"twice" 1], [.register 0 b!"thrice" fun a => 3 * a]].map
    ObjClient.ofList).map (·.prog squares))).run [0, 1]).log :=
  C165_shared_refuted squares sampleObjects _ 1 0 (by decide) _ _ rfl rfl (.factory 0) (by exact Or.inl ⟨rfl, id⟩) (by exact Or.inl rfl) _ ⟨_, rfl⟩ ⟨_, rfl⟩

-- With a lock the square of 4 is computed once.
example : (Locked.run squares ⟨sampleObjects, [.ofList [.memo 0 4, .memo 0 3], .ofList [.memo 0 4]], [], []⟩ [0, 1, 0]).evaluated = [(0, 4)] := rfl

end Flut.Threads
