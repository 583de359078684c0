import Verif.Spec.Containers

/-! Lemmas about `sorted_vector`, `circular_deque`, `memoize` and `flag_set`. -/

namespace Flut

namespace SortedVector

variable {α : Type}

theorem insertIdx_append_length (a b : List α) (e : α) :
    (a ++ b).insertIdx a.length e = a ++ e :: b := by
  induction a with
  | nil => rfl
  | cons x a ih => simp [ih]

theorem dropWhile_all (lt : α → α → Bool) (h : StrictWeak lt) (e : α) (l : List α)
    (hs : Sorted lt l) : ∀ x ∈ l.dropWhile (fun x => !lt e x), lt e x = true := by
  induction l with
  | nil => simp
  | cons a r ih =>
    have hs' := List.pairwise_cons.1 hs
    rw [List.dropWhile_cons]
    by_cases ha : lt e a = true
    · simp only [ha, Bool.not_true, Bool.false_eq_true, if_false]
      intro x hx
      rcases List.mem_cons.1 hx with rfl | hx
      · exact ha
      · rcases h.weak e x a ha with h1 | h1
        · exact h1
        · rw [hs'.1 x hx] at h1; cases h1
    · simp only [ha, Bool.not_false, if_true]
      exact ih hs'.2

theorem insert_split (lt : α → α → Bool) (h : StrictWeak lt) (e : α) (l : List α)
    (hs : Sorted lt l) :
    ∃ pre post, l = pre ++ post ∧ (∀ x ∈ pre, lt e x = false) ∧ (∀ x ∈ post, lt e x = true) ∧
      insert lt e l = .ok (pre ++ e :: post) := by
  refine ⟨l.takeWhile (fun x => !lt e x), l.dropWhile (fun x => !lt e x),
    List.takeWhile_append_dropWhile.symm, ?_, dropWhile_all lt h e l hs, ?_⟩
  · intro x hx
    have := List.all_takeWhile (l := l) (p := fun x => !lt e x)
    rw [List.all_eq_true] at this
    simpa using this x hx
  · have hd : l.drop (l.takeWhile (fun x => !lt e x)).length = l.dropWhile (fun x => !lt e x) := by
      conv => lhs; arg 2; rw [← List.takeWhile_append_dropWhile (p := fun x => !lt e x) (l := l)]
      rw [List.drop_left]
    unfold insert upperBound
    simp only [hd]
    rw [if_pos (by rw [List.all_eq_true]; exact dropWhile_all lt h e l hs)]
    simp only [Res.bind_ok]
    have h3 := insertIdx_append_length (l.takeWhile fun x => !lt e x) (l.dropWhile fun x => !lt e x) e
    rw [List.takeWhile_append_dropWhile] at h3
    rw [h3]

theorem sorted_insert (lt : α → α → Bool) (h : StrictWeak lt) (e : α) (pre post : List α)
    (hs : Sorted lt (pre ++ post)) (h1 : ∀ x ∈ pre, lt e x = false) (h2 : ∀ x ∈ post, lt e x = true) :
    Sorted lt (pre ++ e :: post) := by
  unfold Sorted at hs ⊢
  rw [List.pairwise_append] at hs ⊢
  refine ⟨hs.1, ?_, ?_⟩
  · rw [List.pairwise_cons]
    refine ⟨?_, hs.2.1⟩
    intro x hx
    cases hxe : lt x e with
    | false => rfl
    | true =>
      have := h.trans _ _ _ (h2 x hx) hxe
      rw [h.irrefl] at this
      cases this
  · intro a ha b hb
    rcases List.mem_cons.1 hb with rfl | hb
    · exact h1 a ha
    · exact hs.2.2 a ha b hb

theorem sorted_eraseIdx (lt : α → α → Bool) (l : List α) (i : Nat) (hs : Sorted lt l) :
    Sorted lt (l.eraseIdx i) := List.Pairwise.sublist (List.eraseIdx_sublist l i) hs

end SortedVector

namespace CDeque

variable {α : Type}

theorem mod_wrap (f i c : Nat) (hf : f < c) (hi : i ≤ c) :
    (f + i) % c = if f + i < c then f + i else f + i - c := by
  by_cases h : f + i < c
  · rw [if_pos h, Nat.mod_eq_of_lt h]
  · rw [if_neg h, Nat.mod_eq_sub_mod (by omega), Nat.mod_eq_of_lt (by omega)]

theorem modC_pos (a b : Nat) (h : 0 < b) : modC a b = .ok (a % b) := if_neg (by omega)

theorem pushBack_eq (v : α) (d : CDeque α) :
    d.pushBack v = if d.size + 1 > d.buffer.length then
      bufInsert ⟨d.front, d.size + 1, d.buffer⟩ (d.front + (d.size + 1) - 1) v
    else (modC (d.front + (d.size + 1) - 1) d.buffer.length >>= fun i =>
      bufSet ⟨d.front, d.size + 1, d.buffer⟩ i v) := rfl

theorem pushFront_eq (v : α) (d : CDeque α) :
    d.pushFront v = if d.size + 1 > d.buffer.length then
      bufInsert ⟨d.front, d.size + 1, d.buffer⟩ d.front v
    else (modC (d.front + d.buffer.length - 1) d.buffer.length >>= fun i =>
      bufSet ⟨i, d.size + 1, d.buffer⟩ i v) := rfl

theorem popFront_eq (d : CDeque α) :
    d.popFront = if d.size > 0 then
      (modC (d.front + 1) d.buffer.length >>= fun i => .ok ⟨i, d.size - 1, d.buffer⟩)
    else .throws .assertion := rfl

/-- The deque holds exactly the sequence `l`. -/
structure Rep (d : CDeque α) (l : List α) : Prop where
  size : d.size = l.length
  le : l.length ≤ d.buffer.length
  front : d.front < d.buffer.length ∨ (d.front = 0 ∧ d.buffer.length = 0)
  elem : ∀ i, i < l.length → d.buffer[(d.front + i) % d.buffer.length]? = l[i]?

theorem rep_new (x : α) (n : Nat) : Rep (new x n) [] := by
  refine ⟨rfl, by simp, ?_, by simp⟩
  simp only [new, List.length_replicate, true_and]
  omega

theorem rep_clear (d : CDeque α) (l : List α) (h : Rep d l) : Rep d.clear [] := by
  refine ⟨rfl, by simp, ?_, by simp⟩
  simp only [clear, true_and]
  omega

theorem rep_popBack (d : CDeque α) (l : List α) (h : Rep d l) (hl : l ≠ []) :
    ∃ d', d.popBack = .ok d' ∧ Rep d' l.dropLast := by
  have hlen : 0 < l.length := List.length_pos_iff.2 hl
  refine ⟨{ d with size := d.size - 1 }, ?_, ?_⟩
  · unfold popBack
    rw [if_pos (by rw [h.size]; exact hlen)]
  · refine ⟨by simp [h.size], by simp; have := h.le; omega, h.front, ?_⟩
    intro i hi
    simp only [List.length_dropLast] at hi
    rw [h.elem i (by omega), List.getElem?_dropLast, if_pos hi]

theorem rep_popFront (d : CDeque α) (x : α) (l : List α) (h : Rep d (x :: l)) :
    ∃ d', d.popFront = .ok d' ∧ Rep d' l := by
  have hle := h.le
  have hf := h.front
  simp only [List.length_cons] at hle
  have hfc : d.front < d.buffer.length := by omega
  refine ⟨{ d with front := (d.front + 1) % d.buffer.length, size := d.size - 1 }, ?_, ?_⟩
  · rw [popFront_eq, if_pos (by rw [h.size]; simp), modC_pos _ _ (by omega)]
    rfl
  · refine ⟨by simp [h.size], by simp only; omega, Or.inl (Nat.mod_lt _ (by omega)), ?_⟩
    intro i hi
    simp only
    rw [Nat.mod_add_mod]
    have := h.elem (i + 1) (by simpa using hi)
    rw [List.getElem?_cons_succ] at this
    rw [← this]
    congr 2
    omega

theorem rep_pushBack_room (d : CDeque α) (v : α) (l : List α) (h : Rep d l)
    (hr : l.length < d.buffer.length) :
    ∃ d', d.pushBack v = .ok d' ∧ Rep d' (l ++ [v]) ∧ d'.buffer.length = d.buffer.length := by
  have hf := h.front
  have hfc : d.front < d.buffer.length := by omega
  have hlt : (d.front + l.length) % d.buffer.length < d.buffer.length := Nat.mod_lt _ (by omega)
  refine ⟨⟨d.front, d.size + 1, d.buffer.set ((d.front + l.length) % d.buffer.length) v⟩, ?_, ?_,
    by simp⟩
  · have hs := h.size
    have e : d.front + (d.size + 1) - 1 = d.front + l.length := by omega
    rw [pushBack_eq, if_neg (by omega), modC_pos _ _ (by omega), e]
    exact if_pos hlt
  · refine ⟨by simp [h.size], by simp; omega, by simp; exact Or.inl hfc, ?_⟩
    intro i hi
    simp only [List.length_append, List.length_cons, List.length_nil, Nat.zero_add] at hi
    simp only [List.length_set]
    by_cases hil : i = l.length
    · subst hil
      rw [List.getElem?_set_self (by exact hlt)]
      simp
    · rw [List.getElem?_set_ne, h.elem i (by omega), List.getElem?_append_left (by omega)]
      rw [mod_wrap _ _ _ hfc (by omega), mod_wrap _ _ _ hfc (by omega)]
      split <;> split <;> omega

theorem rep_pushBack_full (d : CDeque α) (v : α) (l : List α) (h : Rep d l)
    (hr : l.length = d.buffer.length) (h0 : d.front = 0) :
    ∃ d', d.pushBack v = .ok d' ∧ Rep d' (l ++ [v]) := by
  have hs := h.size
  refine ⟨⟨d.front, d.size + 1, d.buffer.insertIdx (d.front + (d.size + 1) - 1) v⟩, ?_, ?_⟩
  · rw [pushBack_eq, if_pos (by omega)]
    exact if_pos (by simp only; omega)
  · have e : d.front + (d.size + 1) - 1 = d.buffer.length := by omega
    have e2 : d.buffer.insertIdx d.buffer.length v = d.buffer ++ [v] := by
      have := SortedVector.insertIdx_append_length d.buffer [] v
      simpa using this
    refine ⟨by simp [h.size], ?_, ?_, ?_⟩
    · simp only [e, e2, List.length_append]; omega
    · left; simp only [e, e2, List.length_append, List.length_cons, List.length_nil]; omega
    · intro i hi
      simp only [List.length_append, List.length_cons, List.length_nil, Nat.zero_add] at hi
      simp only [e, e2, List.length_append, List.length_cons, List.length_nil]
      rw [h0, Nat.zero_add, Nat.mod_eq_of_lt (by omega)]
      by_cases hil : i = l.length
      · rw [hil, List.getElem?_append_right (by omega), List.getElem?_append_right (by omega), hr]
      · rw [List.getElem?_append_left (by omega), List.getElem?_append_left (by omega)]
        have := h.elem i (by omega)
        rw [h0, Nat.zero_add, Nat.mod_eq_of_lt (by omega)] at this
        exact this

theorem pushBack_ub (d : CDeque α) (v : α) (l : List α) (h : Rep d l)
    (hr : l.length = d.buffer.length) (h0 : d.front ≠ 0) : d.pushBack v = .ub := by
  have hs := h.size
  rw [pushBack_eq, if_pos (by omega)]
  exact if_neg (by simp only; omega)

theorem rep_pushFront_room (d : CDeque α) (v : α) (l : List α) (h : Rep d l)
    (hr : l.length < d.buffer.length) :
    ∃ d', d.pushFront v = .ok d' ∧ Rep d' (v :: l) ∧ d'.buffer.length = d.buffer.length := by
  have hf := h.front
  have hs := h.size
  have hfc : d.front < d.buffer.length := by omega
  have hlt : (d.front + d.buffer.length - 1) % d.buffer.length < d.buffer.length :=
    Nat.mod_lt _ (by omega)
  have hfront : (d.front + d.buffer.length - 1) % d.buffer.length
      = if d.front = 0 then d.buffer.length - 1 else d.front - 1 := by
    by_cases h0 : d.front = 0
    · rw [if_pos h0, h0, Nat.zero_add, Nat.mod_eq_of_lt (by omega)]
    · rw [if_neg h0, Nat.mod_eq_sub_mod (by omega), Nat.mod_eq_of_lt (by omega)]
      omega
  refine ⟨⟨(d.front + d.buffer.length - 1) % d.buffer.length, d.size + 1,
    d.buffer.set ((d.front + d.buffer.length - 1) % d.buffer.length) v⟩, ?_, ?_, by simp⟩
  · rw [pushFront_eq, if_neg (by omega), modC_pos _ _ (by omega)]
    exact if_pos hlt
  · refine ⟨by simp [h.size], by simp; omega, by simp; exact Or.inl hlt, ?_⟩
    intro i hi
    simp only [List.length_cons] at hi
    simp only [List.length_set]
    cases i with
    | zero =>
      rw [Nat.add_zero, Nat.mod_eq_of_lt hlt, List.getElem?_set_self hlt]
      rfl
    | succ i =>
      rw [List.getElem?_cons_succ, ← h.elem i (by omega), List.getElem?_set_ne]
      · congr 1
        rw [mod_wrap _ _ _ hlt (by omega), mod_wrap _ _ _ hfc (by omega), hfront]
        by_cases h0 : d.front = 0
        · rw [if_pos h0]; split <;> split <;> omega
        · rw [if_neg h0]; split <;> split <;> omega
      · rw [mod_wrap _ _ _ hlt (by omega), hfront]
        by_cases h0 : d.front = 0
        · rw [if_pos h0]; split <;> omega
        · rw [if_neg h0]; split <;> omega

theorem rep_pushFront_full (d : CDeque α) (v : α) (l : List α) (h : Rep d l)
    (hr : l.length = d.buffer.length) :
    ∃ d', d.pushFront v = .ok d' ∧ Rep d' (v :: l) := by
  have hs := h.size
  have hf := h.front
  have hfle : d.front ≤ d.buffer.length := by omega
  have hlen : (d.buffer.insertIdx d.front v).length = d.buffer.length + 1 := by
    rw [List.length_insertIdx, if_pos hfle]
  refine ⟨⟨d.front, d.size + 1, d.buffer.insertIdx d.front v⟩, ?_, ?_⟩
  · rw [pushFront_eq, if_pos (by omega)]
    exact if_pos hfle
  · refine ⟨by simp [h.size], by simp only [hlen, List.length_cons]; omega,
      Or.inl (by simp only [hlen]; omega), ?_⟩
    intro i hi
    simp only [List.length_cons] at hi
    simp only [hlen]
    rw [mod_wrap _ _ _ (by omega) (by omega)]
    cases i with
    | zero =>
      rw [if_pos (by omega), Nat.add_zero, List.getElem?_insertIdx_self, if_pos hfle]
      rfl
    | succ i =>
      rw [List.getElem?_cons_succ, ← h.elem i (by omega)]
      rw [mod_wrap _ _ _ (by omega) (by omega)]
      by_cases hw : d.front + i < d.buffer.length
      · rw [if_pos (by omega), if_pos hw, List.getElem?_insertIdx_of_gt (by omega)]
        congr 1
      · rw [if_neg (by omega), if_neg hw, List.getElem?_insertIdx_of_lt (by omega)]
        congr 1
        omega

theorem rep_get (d : CDeque α) (l : List α) (h : Rep d l) (i : Nat) (hi : i < l.length) :
    d.get i = .ok l[i] := by
  have hle := h.le
  have := h.elem i hi
  unfold get modC
  rw [if_neg (by omega)]
  simp only [Res.bind_ok, bufGet]
  rw [this, List.getElem?_eq_getElem hi]

theorem rep_iterFrom (d : CDeque α) (l : List α) (h : Rep d l) (n k : Nat) (hk : k + n = l.length) :
    d.iterFrom n (d.front + k) = .ok (l.drop k) := by
  induction n generalizing k with
  | zero => rw [List.drop_of_length_le (by omega)]; rfl
  | succ n ih =>
    have hle := h.le
    unfold iterFrom modC
    rw [if_neg (by omega)]
    have hg := h.elem k (by omega)
    rw [List.getElem?_eq_getElem (l := l) (by omega)] at hg
    simp only [Res.bind_ok, bufGet, hg]
    rw [show d.front + k + 1 = d.front + (k + 1) by omega, ih (k + 1) (by omega)]
    simp only [Res.bind_ok]
    rw [List.drop_eq_getElem_cons (i := k) (by omega)]

theorem rep_iterate (d : CDeque α) (l : List α) (h : Rep d l) : d.iterate = .ok l := by
  have := rep_iterFrom d l h l.length 0 (by omega)
  unfold iterate
  rw [h.size]
  simpa using this

theorem rep_front (d : CDeque α) (x : α) (l : List α) (h : Rep d (x :: l)) : d.frontElem = .ok x := by
  have hle := h.le
  have hf := h.front
  have := h.elem 0 (by simp)
  simp only [List.length_cons] at hle
  rw [Nat.add_zero, Nat.mod_eq_of_lt (by omega)] at this
  unfold frontElem bufGet
  rw [if_pos (by rw [h.size]; simp), this]
  rfl

theorem rep_back (d : CDeque α) (l : List α) (x : α) (h : Rep d (l ++ [x])) : d.back = .ok x := by
  have hle := h.le
  have hs := h.size
  have := h.elem l.length (by simp)
  simp only [List.length_append, List.length_cons, List.length_nil, Nat.zero_add] at hle hs
  unfold back modC capacity
  rw [if_pos (by omega), if_neg (by omega)]
  simp only [Res.bind_ok, bufGet]
  rw [show d.front + d.size - 1 = d.front + l.length by omega, this]
  simp

theorem rep_run (op : Op α) (d : CDeque α) (l l' : List α) (h : Rep d l)
    (hs : DequeSpec.step op l = some l') :
    d.run op = .ub ∨ ∃ d', d.run op = .ok d' ∧ Rep d' l' := by
  have hle := h.le
  cases op with
  | pushBack v =>
    simp only [DequeSpec.step, Option.some.injEq] at hs
    subst hs
    by_cases hr : l.length < d.buffer.length
    · obtain ⟨d', h1, h2, _⟩ := rep_pushBack_room d v l h hr
      exact Or.inr ⟨d', h1, h2⟩
    · by_cases h0 : d.front = 0
      · exact Or.inr (rep_pushBack_full d v l h (by omega) h0)
      · exact Or.inl (pushBack_ub d v l h (by omega) h0)
  | pushFront v =>
    simp only [DequeSpec.step, Option.some.injEq] at hs
    subst hs
    right
    by_cases hr : l.length < d.buffer.length
    · obtain ⟨d', h1, h2, _⟩ := rep_pushFront_room d v l h hr
      exact ⟨d', h1, h2⟩
    · exact rep_pushFront_full d v l h (by omega)
  | popBack =>
    cases l with
    | nil => simp [DequeSpec.step] at hs
    | cons x l =>
      simp only [DequeSpec.step, Option.some.injEq] at hs
      subst hs
      exact Or.inr (rep_popBack d _ h (by simp))
  | popFront =>
    cases l with
    | nil => simp [DequeSpec.step] at hs
    | cons x l =>
      simp only [DequeSpec.step, Option.some.injEq] at hs
      subst hs
      exact Or.inr (rep_popFront d x l h)
  | clear =>
    simp only [DequeSpec.step, Option.some.injEq] at hs
    subst hs
    exact Or.inr ⟨_, rfl, rep_clear d l h⟩

theorem run_capacity (op : Op α) (d d' : CDeque α) (h : d.run op = .ok d') :
    d.buffer.length ≤ d'.buffer.length := by
  have hins : ∀ (e : CDeque α) (i : Nat) (v : α), e.bufInsert i v = .ok d' →
      e.buffer.length ≤ d'.buffer.length := by
    intro e i v he
    unfold bufInsert at he
    split at he
    · injection he with he
      subst he
      simp only [List.length_insertIdx]
      split <;> omega
    · cases he
  have hset : ∀ (e : CDeque α) (i : Nat) (v : α), e.bufSet i v = .ok d' →
      e.buffer.length ≤ d'.buffer.length := by
    intro e i v he
    unfold bufSet at he
    split at he
    · injection he with he
      subst he
      simp
    · cases he
  cases op with
  | pushBack v =>
    simp only [run] at h
    rw [pushBack_eq] at h
    split at h
    · have := hins _ _ _ h; exact this
    · obtain ⟨i, _, h2⟩ := Res.bind_eq_ok.1 h
      have := hset _ _ _ h2; exact this
  | pushFront v =>
    simp only [run] at h
    rw [pushFront_eq] at h
    split at h
    · have := hins _ _ _ h; exact this
    · obtain ⟨i, _, h2⟩ := Res.bind_eq_ok.1 h
      have := hset _ _ _ h2; exact this
  | popBack =>
    simp only [run, popBack] at h
    split at h
    · injection h with h; subst h; exact Nat.le_refl _
    · cases h
  | popFront =>
    simp only [run] at h
    rw [popFront_eq] at h
    split at h
    · obtain ⟨i, _, h2⟩ := Res.bind_eq_ok.1 h
      injection h2 with h2; subst h2; exact Nat.le_refl _
    · cases h
  | clear =>
    simp only [run] at h
    injection h with h; subst h; exact Nat.le_refl _

theorem rep_runAll (ops : List (Op α)) (d : CDeque α) (l l' : List α) (h : Rep d l)
    (hs : DequeSpec.run ops l = some l') :
    runAll ops d = .ub ∨ ∃ d', runAll ops d = .ok d' ∧ Rep d' l' := by
  induction ops generalizing d l with
  | nil =>
    simp only [DequeSpec.run, Option.some.injEq] at hs
    subst hs
    exact Or.inr ⟨d, rfl, h⟩
  | cons op ops ih =>
    simp only [DequeSpec.run] at hs
    cases h1 : DequeSpec.step op l with
    | none => simp [h1] at hs
    | some l1 =>
      simp only [h1, Option.bind_some] at hs
      rcases rep_run op d l l1 h h1 with h2 | ⟨d1, h2, h3⟩
      · left; simp [runAll, h2]
      · simpa [runAll, h2] using ih d1 l1 h3 hs

theorem rep_runAll_room (ops : List (Op α)) (d : CDeque α) (l l' : List α) (h : Rep d l)
    (n : Nat) (hn : n ≤ d.buffer.length)
    (hroom : ∀ pre post l1, ops = pre ++ post → DequeSpec.run pre l = some l1 → l1.length ≤ n)
    (hs : DequeSpec.run ops l = some l') :
    ∃ d', runAll ops d = .ok d' ∧ Rep d' l' := by
  induction ops generalizing d l with
  | nil =>
    simp only [DequeSpec.run, Option.some.injEq] at hs
    subst hs
    exact ⟨d, rfl, h⟩
  | cons op ops ih =>
    simp only [DequeSpec.run] at hs
    cases h1 : DequeSpec.step op l with
    | none => simp [h1] at hs
    | some l1 =>
      simp only [h1, Option.bind_some] at hs
      have hl1 : l1.length ≤ n := hroom [op] ops l1 rfl (by simp [DequeSpec.run, h1])
      have hok : ∃ d1, d.run op = .ok d1 ∧ Rep d1 l1 := by
        rcases rep_run op d l l1 h h1 with h2 | h2
        · exfalso
          cases op with
          | pushBack v =>
            simp only [DequeSpec.step, Option.some.injEq] at h1
            subst h1
            simp only [List.length_append, List.length_cons, List.length_nil] at hl1
            obtain ⟨d', h3, _, _⟩ := rep_pushBack_room d v l h (by omega)
            simp only [run] at h2
            rw [h2] at h3
            cases h3
          | pushFront v =>
            simp only [run] at h2
            by_cases hr : l.length < d.buffer.length
            · obtain ⟨d', h3, _, _⟩ := rep_pushFront_room d v l h hr
              rw [h2] at h3; cases h3
            · obtain ⟨d', h3, _⟩ := rep_pushFront_full d v l h (by have := h.le; omega)
              rw [h2] at h3; cases h3
          | popBack =>
            simp only [run, popBack] at h2
            split at h2 <;> cases h2
          | popFront =>
            cases l with
            | nil => simp [DequeSpec.step] at h1
            | cons x l =>
              obtain ⟨d', h3, _⟩ := rep_popFront d x l h
              simp only [run] at h2
              rw [h2] at h3; cases h3
          | clear => simp [run] at h2
        · exact h2
      obtain ⟨d1, h2, h3⟩ := hok
      obtain ⟨d2, h4, h5⟩ := ih d1 l1 h3 (by have := run_capacity op d d1 h2; omega)
        (by
          intro pre post l2 he hr
          exact hroom (op :: pre) post l2 (by rw [he]; rfl) (by simp [DequeSpec.run, h1, hr])) hs
      exact ⟨d2, by simp [runAll, h2, h4], h5⟩

theorem ub_only (op : Op α) (d : CDeque α) (l l' : List α) (h : Rep d l) (hs : DequeSpec.step op l = some l') :
    d.run op = .ub ↔ (∃ v, op = .pushBack v) ∧ l.length = d.buffer.length ∧ d.front ≠ 0 := by
  have hle := h.le
  constructor
  · intro h2
    cases op with
    | pushBack v =>
      refine ⟨⟨v, rfl⟩, ?_⟩
      simp only [run] at h2
      by_cases hr : l.length < d.buffer.length
      · obtain ⟨d', h3, _, _⟩ := rep_pushBack_room d v l h hr
        rw [h2] at h3; cases h3
      · refine ⟨by omega, fun h0 => ?_⟩
        obtain ⟨d', h3, _⟩ := rep_pushBack_full d v l h (by omega) h0
        rw [h2] at h3; cases h3
    | pushFront v =>
      exfalso
      simp only [run] at h2
      by_cases hr : l.length < d.buffer.length
      · obtain ⟨d', h3, _, _⟩ := rep_pushFront_room d v l h hr
        rw [h2] at h3; cases h3
      · obtain ⟨d', h3, _⟩ := rep_pushFront_full d v l h (by omega)
        rw [h2] at h3; cases h3
    | popBack =>
      simp only [run, popBack] at h2
      split at h2 <;> cases h2
    | popFront =>
      exfalso
      cases l with
      | nil => simp [DequeSpec.step] at hs
      | cons x l =>
        obtain ⟨d', h3, _⟩ := rep_popFront d x l h
        simp only [run] at h2
        rw [h2] at h3; cases h3
    | clear => simp [run] at h2
  · rintro ⟨⟨v, rfl⟩, h1, h2⟩
    exact pushBack_ub d v l h h1 h2

/-- The operations at the back leave the front where it is. -/
theorem front_stays (op : Op α) (d d' : CDeque α) (hop : op ≠ .popFront ∧ ∀ v, op ≠ .pushFront v) (h0 : d.front = 0)
    (h : d.run op = .ok d') : d'.front = 0 := by
  cases op with
  | pushBack v =>
    simp only [run] at h
    rw [pushBack_eq] at h
    split at h
    · unfold bufInsert at h
      split at h
      · injection h with h; subst h; exact h0
      · cases h
    · rw [modC] at h
      split at h
      · simp at h
      · simp only [Res.bind_ok, bufSet] at h
        split at h
        · injection h with h; subst h; exact h0
        · cases h
  | pushFront v => exact absurd rfl (hop.2 v)
  | popBack =>
    simp only [run, popBack] at h
    split at h
    · injection h with h; subst h; exact h0
    · cases h
  | popFront => exact absurd rfl hop.1
  | clear =>
    simp only [run] at h
    injection h with h; subst h; rfl

theorem runAll_back (ops : List (Op α)) (d : CDeque α) (l l' : List α) (h : Rep d l) (h0 : d.front = 0)
    (hops : ∀ op ∈ ops, op ≠ .popFront ∧ ∀ v, op ≠ .pushFront v) (hs : DequeSpec.run ops l = some l') :
    ∃ d', runAll ops d = .ok d' ∧ Rep d' l' := by
  induction ops generalizing d l with
  | nil =>
    simp only [DequeSpec.run, Option.some.injEq] at hs
    subst hs
    exact ⟨d, rfl, h⟩
  | cons op ops ih =>
    simp only [DequeSpec.run] at hs
    cases h1 : DequeSpec.step op l with
    | none => simp [h1] at hs
    | some l1 =>
      simp only [h1, Option.bind_some] at hs
      rcases rep_run op d l l1 h h1 with h2 | ⟨d1, h2, h3⟩
      · exact absurd h0 ((ub_only op d l l1 h h1).1 h2).2.2
      · obtain ⟨d2, h4, h5⟩ := ih d1 l1 h3 (front_stays op d d1 (hops op (by simp)) h0 h2)
          (fun o ho => hops o (by simp [ho])) hs
        exact ⟨d2, by simp [runAll, h2, h4], h5⟩

theorem runAll_noPushBack (ops : List (Op α)) (d : CDeque α) (l l' : List α) (h : Rep d l)
    (hops : ∀ v, .pushBack v ∉ ops) (hs : DequeSpec.run ops l = some l') :
    ∃ d', runAll ops d = .ok d' ∧ Rep d' l' := by
  induction ops generalizing d l with
  | nil =>
    simp only [DequeSpec.run, Option.some.injEq] at hs
    subst hs
    exact ⟨d, rfl, h⟩
  | cons op ops ih =>
    simp only [DequeSpec.run] at hs
    cases h1 : DequeSpec.step op l with
    | none => simp [h1] at hs
    | some l1 =>
      simp only [h1, Option.bind_some] at hs
      rcases rep_run op d l l1 h h1 with h2 | ⟨d1, h2, h3⟩
      · obtain ⟨⟨v, rfl⟩, _⟩ := (ub_only op d l l1 h h1).1 h2
        exact absurd (by simp) (hops v)
      · obtain ⟨d2, h4, h5⟩ := ih d1 l1 h3 (fun v hv => hops v (by simp [hv])) hs
        exact ⟨d2, by simp [runAll, h2, h4], h5⟩

end CDeque

end Flut
