import Verif.Spec.Threads
import Mathlib.Tactic

/-! # Threads that do not touch what others write -/

namespace Flut.Threads

variable {L V α β : Type}

/-- The accesses of a computation are reads in `R`, anything in `W`, and changes in `A` whose result is not used. -/
def Prog.Uses (R W A : L → Prop) : Prog L V α → Prop
  | .ret _ => True
  | .read l k => (R l ∨ W l) ∧ ∀ v, (k v).Uses R W A
  | .write l _ k => W l ∧ k.Uses R W A
  | .modify _ l _ k => (W l ∨ A l) ∧ k.Uses R W A

/-- Without `A`. -/
abbrev Prog.Stays (R W : L → Prop) (x : Prog L V α) : Prop := x.Uses R W fun _ => False

/-- All results satisfy a property, whatever is read. -/
def Prog.Gives (Q : α → Prop) : Prog L V α → Prop
  | .ret a => Q a
  | .read _ k => ∀ v, (k v).Gives Q
  | .write _ _ k => k.Gives Q
  | .modify _ _ _ k => k.Gives Q

theorem uses_bind {R W A : L → Prop} {Q : α → Prop} (x : Prog L V α) (f : α → Prog L V β) (hx : x.Uses R W A) (hq : x.Gives Q)
    (hf : ∀ a, Q a → (f a).Uses R W A) : (x.bind f).Uses R W A := by
  induction x with
  | ret a => exact hf a hq
  | read l k ih => exact ⟨hx.1, fun v => ih v (hx.2 v) (hq v)⟩
  | write l v k ih => exact ⟨hx.1, ih hx.2 hq⟩
  | modify a l g k ih => exact ⟨hx.1, ih hx.2 hq⟩

theorem gives_true (x : Prog L V α) : x.Gives fun _ => True := by
  induction x with
  | ret a => trivial
  | read l k ih => exact ih
  | write l v k ih => exact ih
  | modify a l g k ih => exact ih

theorem gives_bind {Q : α → Prop} {Q' : β → Prop} (x : Prog L V α) (f : α → Prog L V β) (hq : x.Gives Q) (hf : ∀ a, Q a → (f a).Gives Q') :
    (x.bind f).Gives Q' := by
  induction x with
  | ret a => exact hf a hq
  | read l k ih => exact fun v => ih v (hq v)
  | write l v k ih => exact ih hq
  | modify a l g k ih => exact ih hq

theorem uses_bind' {R W A : L → Prop} (x : Prog L V α) (f : α → Prog L V β) (hx : x.Uses R W A) (hf : ∀ a, (f a).Uses R W A) : (x.bind f).Uses R W A :=
  uses_bind x f hx (gives_true x) (fun a _ => hf a)

theorem uses_andThen {R W A : L → Prop} (x : Prog L V (Res α)) (f : α → Prog L V (Res β)) (hx : x.Uses R W A) (hf : ∀ a, (f a).Uses R W A) :
    (x.andThen f).Uses R W A := by
  refine uses_bind' x _ hx fun a => ?_
  cases a with
  | ok a => exact hf a
  | throws e => trivial
  | ub => trivial
  | diverges => trivial

theorem gives_andThen {Q' : Res β → Prop} (x : Prog L V (Res α)) (f : α → Prog L V (Res β)) (h1 : ∀ e, Q' (.throws e)) (h2 : Q' .ub) (h3 : Q' .diverges)
    (hf : ∀ a, (f a).Gives Q') : (x.andThen f).Gives Q' := by
  refine gives_bind x _ (gives_true x) fun a _ => ?_
  cases a with
  | ok a => exact hf a
  | throws e => exact h1 e
  | ub => exact h2
  | diverges => exact h3

/-- The same for a memory in which the places in `R` have the values of `m`. -/
def Prog.UsesAt (m : L → V) (R W A : L → Prop) : Prog L V α → Prop
  | .ret _ => True
  | .read l k => (R l ∧ (k (m l)).UsesAt m R W A) ∨ (W l ∧ ∀ v, (k v).UsesAt m R W A)
  | .write l _ k => W l ∧ k.UsesAt m R W A
  | .modify _ l _ k => (W l ∨ A l) ∧ k.UsesAt m R W A

theorem Prog.Uses.at {R W A : L → Prop} {x : Prog L V α} (m : L → V) (h : x.Uses R W A) : x.UsesAt m R W A := by
  induction x with
  | ret a => trivial
  | read l k ih => exact h.1.elim (fun r => Or.inl ⟨r, ih _ (h.2 _)⟩) (fun w => Or.inr ⟨w, fun v => ih v (h.2 v)⟩)
  | write l v k ih => exact ⟨h.1, ih h.2⟩
  | modify a l g k ih => exact ⟨h.1, ih h.2⟩

variable [DecidableEq L]

/-- The accesses of a computation when no other thread is there. -/
def Prog.trace : Prog L V α → (L → V) → List (L × Kind)
  | .ret _, _ => []
  | .read l k, m => (l, .read) :: (k (m l)).trace m
  | .write l v k, m => (l, .write) :: k.trace (fun l' => if l' = l then v else m l')
  | .modify a l f k, m => (l, if a then .atomic else .write) :: k.trace (fun l' => if l' = l then f (m l) else m l')

omit [DecidableEq L] in
theorem usesAt_bind {m : L → V} {R W A : L → Prop} (x : Prog L V α) (f : α → Prog L V β) (hx : x.UsesAt m R W A) (hf : ∀ a, (f a).UsesAt m R W A) :
    (x.bind f).UsesAt m R W A := by
  induction x with
  | ret a => exact hf a
  | read l k ih =>
    rcases hx with ⟨r, hx⟩ | ⟨w, hx⟩
    · exact Or.inl ⟨r, ih _ hx⟩
    · exact Or.inr ⟨w, fun v => ih v (hx v)⟩
  | write l v k ih => exact ⟨hx.1, ih hx.2⟩
  | modify a l g k ih => exact ⟨hx.1, ih hx.2⟩

/-- What a thread does depends only on what it uses. -/
theorem alone_congr {m0 : L → V} {R W A : L → Prop} (hR : ∀ l, R l → ¬ W l ∧ ¬ A l) (hA : ∀ l, A l → ¬ W l) (x : Prog L V α) (hx : x.UsesAt m0 R W A)
    (m m' : L → V) (hm : ∀ l, R l ∨ W l → m l = m' l) (h0 : ∀ l, R l → m l = m0 l) :
    (x.alone m).1 = (x.alone m').1 ∧ (∀ l, R l ∨ W l → (x.alone m).2 l = (x.alone m').2 l) ∧ x.trace m = x.trace m' := by
  induction x generalizing m m' with
  | ret a => exact ⟨rfl, hm, rfl⟩
  | read l k ih =>
    simp only [Prog.alone, Prog.trace]
    have e : m l = m' l := hm l (hx.elim (fun h => Or.inl h.1) (fun h => Or.inr h.1))
    have hk : (k (m l)).UsesAt m0 R W A := hx.elim (fun h => (h0 l h.1).symm ▸ h.2) (fun h => h.2 _)
    obtain ⟨h1, h2, h3⟩ := ih (m l) hk m m' hm h0
    rw [← e, h3]
    exact ⟨h1, h2, rfl⟩
  | write l v k ih =>
    simp only [Prog.alone, Prog.trace]
    obtain ⟨h1, h2, h3⟩ := ih hx.2 (fun l' => if l' = l then v else m l') (fun l' => if l' = l then v else m' l') (fun l' hl => by
      split
      · rfl
      · exact hm l' hl) (fun l' hl => by
      refine (if_neg (fun (e : l' = l) => (hR l' hl).1 (e ▸ hx.1))).trans (h0 l' hl)
      )
    rw [h3]
    exact ⟨h1, h2, rfl⟩
  | modify a l g k ih =>
    simp only [Prog.alone, Prog.trace]
    obtain ⟨h1, h2, h3⟩ := ih hx.2 (fun l' => if l' = l then g (m l) else m l') (fun l' => if l' = l then g (m' l) else m' l') (fun l' hl => by
      split
      · rename_i e
        subst e
        rw [hm l' hl]
      · exact hm l' hl) (fun l' hl => by
      refine (if_neg (fun (e : l' = l) => hx.1.elim (fun w => (hR l' hl).1 (e ▸ w)) (fun w => (hR l' hl).2 (e ▸ w)))).trans (h0 l' hl)
      )
    rw [h3]
    exact ⟨h1, h2, rfl⟩

/-- Who may use what: what is read is not written, what is written belongs to one thread, what is shared is neither. -/
structure Split (R W : Nat → L → Prop) (A : L → Prop) : Prop where
  read : ∀ i j l, R i l → ¬ W j l
  write : ∀ i j, i ≠ j → ∀ l, W i l → ¬ W j l
  shared : ∀ i l, A l → ¬ R i l ∧ ¬ W i l

/-- Every access in the log is allowed for its thread. -/
def LogOk (R W : Nat → L → Prop) (A : L → Prop) (log : List (Access L)) : Prop :=
  ∀ a ∈ log, (a.kind = .read ∧ R a.thread a.loc) ∨ W a.thread a.loc ∨ A a.loc

/-- The accesses of one thread. -/
def ofThread (i : Nat) (log : List (Access L)) : List (L × Kind) := (log.filter fun a => a.thread = i).map fun a => (a.loc, a.kind)

/-- The invariant of an execution. -/
structure ThreadInv (R W : Nat → L → Prop) (A : L → Prop) (m : L → V) (ps : List (Prog L V α)) (s : Machine L V α) : Prop where
  len : s.threads.length = ps.length
  stays : ∀ (i : Nat) (x : Prog L V α), s.threads[i]? = some x → x.UsesAt m (R i) (W i) A
  log : LogOk R W A s.log
  same : ∀ (i : Nat) (x p : Prog L V α), s.threads[i]? = some x → ps[i]? = some p → (x.alone s.mem).1 = (p.alone m).1 ∧
    (∀ l, R i l ∨ W i l → (x.alone s.mem).2 l = (p.alone m).2 l) ∧ ofThread i s.log ++ x.trace s.mem = p.trace m
  rest : ∀ l, (∀ i, i < ps.length → ¬ W i l) → ¬ A l → s.mem l = m l

/-- Other threads are not changed by an access. -/
theorem step_other (s : Machine L V α) (i j : Nat) (hij : i ≠ j) : (s.step i).threads[j]? = s.threads[j]? := by
  unfold Machine.step
  split
  · exact List.getElem?_set_ne hij
  · exact List.getElem?_set_ne hij
  · exact List.getElem?_set_ne hij
  · rfl

/-- Nor are their accesses. -/
theorem step_other_log (s : Machine L V α) (i j : Nat) (hij : i ≠ j) : ofThread j (s.step i).log = ofThread j s.log := by
  have no : decide (i = j) = false := by simpa using hij
  unfold Machine.step
  split <;> simp [ofThread, hij]

/-- The thread that makes the access does what it would do alone. -/
theorem step_own (s : Machine L V α) (i : Nat) (x : Prog L V α) (hx : s.threads[i]? = some x) :
    ∃ y, (s.step i).threads[i]? = some y ∧ y.alone (s.step i).mem = x.alone s.mem ∧
      ofThread i (s.step i).log ++ y.trace (s.step i).mem = ofThread i s.log ++ x.trace s.mem := by
  have hi : i < s.threads.length := (List.getElem?_eq_some_iff.1 hx).1
  unfold Machine.step
  rw [hx]
  cases x with
  | ret a => exact ⟨_, hx, rfl, rfl⟩
  | read l k => exact ⟨_, List.getElem?_set_self hi, rfl, by simp [ofThread, Prog.trace]⟩
  | write l v k => exact ⟨_, List.getElem?_set_self hi, rfl, by simp [ofThread, Prog.trace]⟩
  | modify a l f k => exact ⟨_, List.getElem?_set_self hi, rfl, by simp [ofThread, Prog.trace]⟩

namespace ThreadInv

variable {R W : Nat → L → Prop} {A : L → Prop} {m : L → V} {ps : List (Prog L V α)} {s : Machine L V α}

theorem known (hd : Split R W A) (h : ThreadInv R W A m ps s) (i : Nat) (l : L) (hl : R i l) : s.mem l = m l :=
  h.rest l (fun j _ => hd.read i j l hl) (fun ha => (hd.shared i l ha).1 hl)

/-- One access leaves alone what other threads use. -/
theorem step_mem (hd : Split R W A) (h : ThreadInv R W A m ps s) (i j : Nat) (hij : i ≠ j) (l : L) (hl : R j l ∨ W j l) : (s.step i).mem l = s.mem l := by
  have no : ∀ l', W i l' ∨ A l' → l ≠ l' := by
    rintro l' h rfl
    rcases h with h | h
    · exact hl.elim (fun r => hd.read j i l r h) (hd.write i j hij l h)
    · exact hl.elim (hd.shared j l h).1 (hd.shared j l h).2
  unfold Machine.step
  split
  · rfl
  · rename_i l' v k he
    exact if_neg (no l' (Or.inl (h.stays i _ he).1))
  · rename_i a l' f k he
    exact if_neg (no l' (h.stays i _ he).1)
  · rfl

theorem step_uses (hd : Split R W A) (h : ThreadInv R W A m ps s) (i : Nat) :
    ∀ (j : Nat) (x : Prog L V α), (s.step i).threads[j]? = some x → x.UsesAt m (R j) (W j) A := by
  intro j y hj
  by_cases hij : i = j
  · subst hij
    revert hj
    unfold Machine.step
    split
    · rename_i l k he
      have hi : i < s.threads.length := (List.getElem?_eq_some_iff.1 he).1
      intro hj
      dsimp only at hj
      rw [List.getElem?_set_self hi] at hj
      injection hj with hj
      subst hj
      rcases h.stays i _ he with ⟨r, hk⟩ | ⟨w, hk⟩
      · rw [h.known hd i l r]; exact hk
      · exact hk _
    · rename_i l v k he
      have hi : i < s.threads.length := (List.getElem?_eq_some_iff.1 he).1
      intro hj
      dsimp only at hj
      rw [List.getElem?_set_self hi] at hj
      injection hj with hj
      subst hj
      exact (h.stays i _ he).2
    · rename_i a l f k he
      have hi : i < s.threads.length := (List.getElem?_eq_some_iff.1 he).1
      intro hj
      dsimp only at hj
      rw [List.getElem?_set_self hi] at hj
      injection hj with hj
      subst hj
      exact (h.stays i _ he).2
    · exact fun hj => h.stays i y hj
  · rw [step_other s i j hij] at hj
    exact h.stays j y hj

/-- Another thread's access does not change what a thread will do. -/
theorem step_same (hd : Split R W A) (h : ThreadInv R W A m ps s) (i j : Nat) (hij : i ≠ j) (y : Prog L V α) (hj : s.threads[j]? = some y) :
    (y.alone (s.step i).mem).1 = (y.alone s.mem).1 ∧ (∀ l, R j l ∨ W j l → (y.alone (s.step i).mem).2 l = (y.alone s.mem).2 l) ∧
      y.trace (s.step i).mem = y.trace s.mem :=
  alone_congr (fun l r => ⟨hd.read j j l r, fun a => (hd.shared j l a).1 r⟩) (fun l a => (hd.shared j l a).2) y (h.stays j y hj) _ _
    (h.step_mem hd i j hij) (fun l r => (h.step_mem hd i j hij l (Or.inl r)).trans (h.known hd j l r))

theorem step (hd : Split R W A) (h : ThreadInv R W A m ps s) (i : Nat) : ThreadInv R W A m ps (s.step i) := by
  refine ⟨?_, h.step_uses hd i, ?_, ?_, ?_⟩
  · unfold Machine.step
    split <;> first | exact h.len | (rw [List.length_set]; exact h.len)
  · intro a ha
    revert ha
    unfold Machine.step
    split
    · rename_i l k he
      intro ha
      rcases List.mem_append.1 ha with ha | ha
      · exact h.log a ha
      · rw [List.mem_singleton.1 ha]
        exact (h.stays i _ he).elim (fun r => Or.inl ⟨rfl, r.1⟩) (fun w => Or.inr (Or.inl w.1))
    · rename_i l v k he
      intro ha
      rcases List.mem_append.1 ha with ha | ha
      · exact h.log a ha
      · rw [List.mem_singleton.1 ha]
        exact Or.inr (Or.inl (h.stays i _ he).1)
    · rename_i b l f k he
      intro ha
      rcases List.mem_append.1 ha with ha | ha
      · exact h.log a ha
      · rw [List.mem_singleton.1 ha]
        exact Or.inr (h.stays i _ he).1
    · exact fun ha => h.log a ha
  · intro j y p hj hp
    by_cases hij : i = j
    · subst hij
      cases hx : s.threads[i]? with
      | none =>
        have : (s.step i) = s := by unfold Machine.step; rw [hx]
        rw [this, hx] at hj
        cases hj
      | some x =>
        obtain ⟨y', hy', e, e'⟩ := step_own s i x hx
        rw [hj] at hy'
        injection hy' with hy'
        subst hy'
        rw [e, e']
        exact h.same i x p hx hp
    · rw [step_other s i j hij] at hj
      have c := h.step_same hd i j hij y hj
      have o := h.same j y p hj hp
      exact ⟨c.1.trans o.1, fun l' hl' => (c.2.1 l' hl').trans (o.2.1 l' hl'), by rw [step_other_log s i j hij, c.2.2]; exact o.2.2⟩
  · intro l hl hla
    rw [← h.rest l hl hla]
    unfold Machine.step
    split
    · rfl
    · rename_i l' v k he
      have hi := h.len ▸ (List.getElem?_eq_some_iff.1 he).1
      exact if_neg (fun (e : l = l') => hl i hi (e ▸ (h.stays i _ he).1))
    · rename_i b l' f k he
      have hi := h.len ▸ (List.getElem?_eq_some_iff.1 he).1
      exact if_neg (fun (e : l = l') => (h.stays i _ he).1.elim (fun w => hl i hi (e ▸ w)) (fun w => hla (e ▸ w)))
    · rfl

theorem start (m : L → V) (ps : List (Prog L V α)) (hp : ∀ (i : Nat) (p : Prog L V α), ps[i]? = some p → p.UsesAt m (R i) (W i) A) :
    ThreadInv R W A m ps (Machine.start m ps) :=
  ⟨rfl, hp, fun a ha => by simp [Machine.start] at ha, fun i x p hx hp' => by
    have : x = p := by
      have e : (Machine.start m ps).threads[i]? = ps[i]? := rfl
      rw [e, hp'] at hx; injection hx with hx; exact hx.symm
    subst this
    exact ⟨rfl, fun _ _ => rfl, rfl⟩, fun _ _ _ => rfl⟩

end ThreadInv

/-- Threads that use nothing that others write do what they would do alone, whatever the schedule. -/
theorem inv_run {R W : Nat → L → Prop} {A : L → Prop} (hd : Split R W A)
    (m : L → V) (ps : List (Prog L V α)) (hp : ∀ (i : Nat) (p : Prog L V α), ps[i]? = some p → p.UsesAt m (R i) (W i) A) (sched : List Nat) :
    ThreadInv R W A m ps ((Machine.start m ps).run sched) := by
  have h0 := ThreadInv.start m ps hp
  unfold Machine.run
  generalize Machine.start m ps = s at h0
  induction sched generalizing s with
  | nil => exact h0
  | cons i is ih => exact ih _ (h0.step hd i)

omit [DecidableEq L] in
theorem log_no_race {R W : Nat → L → Prop} {A : L → Prop} (hd : Split R W A)
    {log : List (Access L)} (h : LogOk R W A log) (hat : ∀ a ∈ log, A a.loc → a.kind = .atomic) : ¬ Race log := by
  rintro ⟨a, ha, b, hb, hne, hl, hk, hna⟩
  rcases h a ha with ⟨ka, ra⟩ | wa | aa
  · rcases h b hb with ⟨kb, rb⟩ | wb | ab
    · rcases hk with hk | hk
      · exact hk ka
      · exact hk kb
    · exact hd.read _ _ _ (hl ▸ ra) wb
    · exact (hd.shared _ _ ab).1 (hl ▸ ra)
  · rcases h b hb with ⟨kb, rb⟩ | wb | ab
    · exact hd.read _ _ _ rb (hl ▸ wa)
    · exact hd.write _ _ hne _ wa (hl ▸ wb)
    · exact (hd.shared _ _ ab).2 (hl ▸ wa)
  · have ab : A b.loc := hl ▸ aa
    exact hna ⟨hat a ha aa, hat b hb ab⟩

/-- An access that a computation makes whatever it reads. -/
def Prog.Must (l : L) (kd : Kind) : Prog L V α → Prop
  | .ret _ => False
  | .read l' k => (l' = l ∧ kd = .read) ∨ ∀ v, (k v).Must l kd
  | .write l' _ k => (l' = l ∧ kd = .write) ∨ k.Must l kd
  | .modify a l' _ k => (l' = l ∧ kd = if a then .atomic else .write) ∨ k.Must l kd

omit [DecidableEq L] in
theorem must_bind_left {l : L} {kd : Kind} (x : Prog L V α) (f : α → Prog L V β) (h : x.Must l kd) : (x.bind f).Must l kd := by
  induction x with
  | ret a => exact h.elim
  | read l' k ih => exact h.imp id (fun h v => ih v (h v))
  | write l' v k ih => exact h.imp id ih
  | modify a l' g k ih => exact h.imp id ih

omit [DecidableEq L] in
theorem must_bind_right {l : L} {kd : Kind} (x : Prog L V α) (f : α → Prog L V β) (h : ∀ a, (f a).Must l kd) : (x.bind f).Must l kd := by
  induction x with
  | ret a => exact h a
  | read l' k ih => exact Or.inr fun v => ih v
  | write l' v k ih => exact Or.inr ih
  | modify a l' g k ih => exact Or.inr ih

/-- A thread that has finished has made it. -/
theorem must_finished {l : L} {kd : Kind} (m : L → V) (ps : List (Prog L V α)) (i : Nat) (p : Prog L V α) (hp : ps[i]? = some p) (h : p.Must l kd)
    (sched : List Nat) (a : α) (hf : ((Machine.start m ps).run sched).threads[i]? = some (.ret a)) :
    ∃ b ∈ ((Machine.start m ps).run sched).log, b.thread = i ∧ b.loc = l ∧ b.kind = kd := by
  have key : ∀ (sched : List Nat) (s : Machine L V α),
      ((∃ b ∈ s.log, b.thread = i ∧ b.loc = l ∧ b.kind = kd) ∨ ∃ x, s.threads[i]? = some x ∧ x.Must l kd) →
      ((∃ b ∈ (s.run sched).log, b.thread = i ∧ b.loc = l ∧ b.kind = kd) ∨ ∃ x, (s.run sched).threads[i]? = some x ∧ x.Must l kd) := by
    intro sched
    induction sched with
    | nil => exact fun s h => h
    | cons j js ih =>
      intro s h
      refine ih (s.step j) ?_
      rcases h with ⟨b, hb, hp⟩ | ⟨x, hx, hm⟩
      · refine Or.inl ⟨b, ?_, hp⟩
        unfold Machine.step
        split <;> first | exact List.mem_append_left _ hb | exact hb
      · by_cases hj : j = i
        · subst hj
          have hi : j < s.threads.length := (List.getElem?_eq_some_iff.1 hx).1
          unfold Machine.step
          rw [hx]
          cases x with
          | ret a => exact hm.elim
          | read l' k =>
            rcases hm with ⟨rfl, rfl⟩ | hm
            · exact Or.inl ⟨_, List.mem_append_right _ (List.mem_singleton.2 rfl), rfl, rfl, rfl⟩
            · exact Or.inr ⟨_, List.getElem?_set_self hi, hm _⟩
          | write l' v k =>
            rcases hm with ⟨rfl, rfl⟩ | hm
            · exact Or.inl ⟨_, List.mem_append_right _ (List.mem_singleton.2 rfl), rfl, rfl, rfl⟩
            · exact Or.inr ⟨_, List.getElem?_set_self hi, hm⟩
          | modify b l' f k =>
            rcases hm with ⟨rfl, rfl⟩ | hm
            · exact Or.inl ⟨_, List.mem_append_right _ (List.mem_singleton.2 rfl), rfl, rfl, rfl⟩
            · exact Or.inr ⟨_, List.getElem?_set_self hi, hm⟩
        · exact Or.inr ⟨x, by rw [step_other s j i hj]; exact hx, hm⟩
  rcases key sched (Machine.start m ps) (Or.inr ⟨p, hp, h⟩) with h | ⟨x, hx, hm⟩
  · exact h
  · rw [hf] at hx
    injection hx with hx
    subst hx
    exact hm.elim

end Flut.Threads
