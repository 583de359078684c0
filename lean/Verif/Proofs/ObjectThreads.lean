import Verif.Proofs.Threads

/-! # Accesses that a thread makes for sure -/

namespace Flut.Threads

variable {L V α β : Type}

/-- A place is read or written, whatever is read. -/
def Prog.Touches (l : L) : Prog L V α → Prop
  | .ret _ => False
  | .read l' k => l' = l ∨ ∀ v, (k v).Touches l
  | .write l' _ k => l' = l ∨ k.Touches l
  | .modify a l' _ k => (l' = l ∧ a = false) ∨ k.Touches l

/-- A place that holds `v` is changed, whatever is read elsewhere. -/
def Prog.Changes (l : L) (v : V) : Prog L V α → Prop
  | .ret _ => False
  | .read l' k => (l' = l ∧ (k v).Changes l v) ∨ ∀ w, (k w).Changes l v
  | .write l' _ k => l' = l ∨ k.Changes l v
  | .modify _ l' _ k => l' = l ∨ k.Changes l v

theorem touches_left {l : L} (x : Prog L V α) (f : α → Prog L V β) (h : x.Touches l) : (x.bind f).Touches l := by
  induction x with
  | ret a => exact h.elim
  | read l' k ih => exact h.imp id (fun h v => ih v (h v))
  | write l' v k ih => exact h.imp id ih
  | modify a l' g k ih => exact h.imp id ih

theorem touches_right {l : L} (x : Prog L V α) (f : α → Prog L V β) (h : ∀ a, (f a).Touches l) : (x.bind f).Touches l := by
  induction x with
  | ret a => exact h a
  | read l' k ih => exact Or.inr fun v => ih v
  | write l' v k ih => exact Or.inr ih
  | modify a l' g k ih => exact Or.inr ih

theorem changes_left {l : L} {v : V} (x : Prog L V α) (f : α → Prog L V β) (h : x.Changes l v) : (x.bind f).Changes l v := by
  induction x with
  | ret a => exact h.elim
  | read l' k ih => exact h.imp (fun h => ⟨h.1, ih _ h.2⟩) (fun h v => ih v (h v))
  | write l' v k ih => exact h.imp id ih
  | modify a l' g k ih => exact h.imp id ih

theorem changes_right {l : L} {v : V} (x : Prog L V α) (f : α → Prog L V β) (h : ∀ a, (f a).Changes l v) : (x.bind f).Changes l v := by
  induction x with
  | ret a => exact h a
  | read l' k ih => exact Or.inr fun v => ih v
  | write l' v k ih => exact Or.inr ih
  | modify a l' g k ih => exact Or.inr ih

variable [DecidableEq L]

theorem step_keeps (s : Machine L V α) (j : Nat) (b : Access L) (hb : b ∈ s.log) : b ∈ (s.step j).log := by
  unfold Machine.step
  split <;> first | exact List.mem_append_left _ hb | exact hb

/-- A thread that has finished has touched the place. -/
theorem touches_finished {l : L} (m : L → V) (ps : List (Prog L V α)) (i : Nat) (p : Prog L V α) (hp : ps[i]? = some p) (h : p.Touches l)
    (sched : List Nat) (a : α) (hf : ((Machine.start m ps).run sched).threads[i]? = some (.ret a)) :
    ∃ b ∈ ((Machine.start m ps).run sched).log, b.thread = i ∧ b.loc = l ∧ b.kind ≠ .atomic := by
  have key : ∀ (sched : List Nat) (s : Machine L V α),
      ((∃ b ∈ s.log, b.thread = i ∧ b.loc = l ∧ b.kind ≠ .atomic) ∨ ∃ x, s.threads[i]? = some x ∧ x.Touches l) →
      ((∃ b ∈ (s.run sched).log, b.thread = i ∧ b.loc = l ∧ b.kind ≠ .atomic) ∨ ∃ x, (s.run sched).threads[i]? = some x ∧ x.Touches l) := by
    intro sched
    induction sched with
    | nil => exact fun s h => h
    | cons j js ih =>
      intro s h
      refine ih (s.step j) ?_
      rcases h with ⟨b, hb, hp⟩ | ⟨x, hx, hm⟩
      · exact Or.inl ⟨b, step_keeps s j b hb, hp⟩
      · by_cases hj : j = i
        · subst hj
          have hi : j < s.threads.length := (List.getElem?_eq_some_iff.1 hx).1
          unfold Machine.step
          rw [hx]
          cases x with
          | ret a => exact hm.elim
          | read l' k =>
            rcases hm with rfl | hm
            · exact Or.inl ⟨_, List.mem_append_right _ (List.mem_singleton.2 rfl), rfl, rfl, by simp⟩
            · exact Or.inr ⟨_, List.getElem?_set_self hi, hm _⟩
          | write l' v k =>
            rcases hm with rfl | hm
            · exact Or.inl ⟨_, List.mem_append_right _ (List.mem_singleton.2 rfl), rfl, rfl, by simp⟩
            · exact Or.inr ⟨_, List.getElem?_set_self hi, hm⟩
          | modify b l' f k =>
            rcases hm with ⟨rfl, rfl⟩ | hm
            · exact Or.inl ⟨_, List.mem_append_right _ (List.mem_singleton.2 rfl), rfl, rfl, by simp⟩
            · exact Or.inr ⟨_, List.getElem?_set_self hi, hm⟩
        · exact Or.inr ⟨x, by rw [step_other s j i hj]; exact hx, hm⟩
  rcases key sched (Machine.start m ps) (Or.inr ⟨p, hp, h⟩) with h | ⟨x, hx, hm⟩
  · exact h
  · rw [hf] at hx
    injection hx with hx
    subst hx
    exact hm.elim

/-- As long as a place has not been written it is as it was. -/
theorem step_unwritten (s : Machine L V α) (j : Nat) (l : L) : (∃ b ∈ (s.step j).log, b.loc = l ∧ b.kind ≠ .read) ∨ (s.step j).mem l = s.mem l := by
  unfold Machine.step
  split
  · exact Or.inr rfl
  · rename_i l' v k _
    by_cases e : l' = l
    · exact Or.inl ⟨_, List.mem_append_right _ (List.mem_singleton.2 rfl), e, by simp⟩
    · exact Or.inr (if_neg fun h => e h.symm)
  · rename_i a l' f k _
    by_cases e : l' = l
    · exact Or.inl ⟨_, List.mem_append_right _ (List.mem_singleton.2 rfl), e, by cases a <;> simp⟩
    · exact Or.inr (if_neg fun h => e h.symm)
  · exact Or.inr rfl

/-- When a thread has finished that would change a place, somebody has changed it. -/
theorem changes_finished {l : L} (m : L → V) (ps : List (Prog L V α)) (i : Nat) (p : Prog L V α) (hp : ps[i]? = some p) (h : p.Changes l (m l))
    (sched : List Nat) (a : α) (hf : ((Machine.start m ps).run sched).threads[i]? = some (.ret a)) :
    ∃ b ∈ ((Machine.start m ps).run sched).log, b.loc = l ∧ b.kind ≠ .read := by
  have key : ∀ (sched : List Nat) (s : Machine L V α),
      ((∃ b ∈ s.log, b.loc = l ∧ b.kind ≠ .read) ∨ (s.mem l = m l ∧ ∃ x, s.threads[i]? = some x ∧ x.Changes l (m l))) →
      ((∃ b ∈ (s.run sched).log, b.loc = l ∧ b.kind ≠ .read) ∨
        ((s.run sched).mem l = m l ∧ ∃ x, (s.run sched).threads[i]? = some x ∧ x.Changes l (m l))) := by
    intro sched
    induction sched with
    | nil => exact fun s h => h
    | cons j js ih =>
      intro s h
      refine ih (s.step j) ?_
      rcases h with ⟨b, hb, hp⟩ | ⟨hv, x, hx, hm⟩
      · exact Or.inl ⟨b, step_keeps s j b hb, hp⟩
      · rcases step_unwritten s j l with hw | hw
        · exact Or.inl hw
        · by_cases hj : j = i
          · subst hj
            have hi : j < s.threads.length := (List.getElem?_eq_some_iff.1 hx).1
            rw [hw]
            unfold Machine.step
            rw [hx]
            cases x with
            | ret a => exact hm.elim
            | read l' k =>
              rcases hm with ⟨rfl, hm⟩ | hm
              · exact Or.inr ⟨hv, _, List.getElem?_set_self hi, by rw [hv]; exact hm⟩
              · exact Or.inr ⟨hv, _, List.getElem?_set_self hi, hm _⟩
            | write l' v k =>
              rcases hm with rfl | hm
              · exact Or.inl ⟨_, List.mem_append_right _ (List.mem_singleton.2 rfl), rfl, by simp⟩
              · exact Or.inr ⟨hv, _, List.getElem?_set_self hi, hm⟩
            | modify b l' f k =>
              rcases hm with rfl | hm
              · exact Or.inl ⟨_, List.mem_append_right _ (List.mem_singleton.2 rfl), rfl, by cases b <;> simp⟩
              · exact Or.inr ⟨hv, _, List.getElem?_set_self hi, hm⟩
          · exact Or.inr ⟨hw.trans hv, x, by rw [step_other s j i hj]; exact hx, hm⟩
  rcases key sched (Machine.start m ps) (Or.inr ⟨rfl, p, hp, h⟩) with h | ⟨-, x, hx, hm⟩
  · exact h
  · rw [hf] at hx
    injection hx with hx
    subst hx
    exact hm.elim

/-- Two threads have finished, one of which would change a place and touches it anyway, and the other touches it: there has been a race. -/
theorem race_finished {l : L} (m : L → V) (ps : List (Prog L V α)) (i j : Nat) (hij : i ≠ j) (p q : Prog L V α) (hp : ps[i]? = some p) (hq : ps[j]? = some q)
    (h : p.Changes l (m l)) (hpt : p.Touches l) (hqt : q.Touches l) (sched : List Nat) (a b : α)
    (hf : ((Machine.start m ps).run sched).threads[i]? = some (.ret a)) (hf' : ((Machine.start m ps).run sched).threads[j]? = some (.ret b)) :
    Race ((Machine.start m ps).run sched).log := by
  obtain ⟨w, hw, w1, w2⟩ := changes_finished m ps i p hp h sched a hf
  obtain ⟨x, hx, x1, x2, x3⟩ := touches_finished m ps i p hp hpt sched a hf
  obtain ⟨y, hy, y1, y2, y3⟩ := touches_finished m ps j q hq hqt sched b hf'
  by_cases e : w.thread = i
  · exact ⟨w, hw, y, hy, by rw [e, y1]; exact hij, w1.trans y2.symm, Or.inl w2, fun h => y3 h.2⟩
  · exact ⟨w, hw, x, hx, by rw [x1]; exact e, w1.trans x2.symm, Or.inl w2, fun h => x3 h.2⟩

end Flut.Threads
