import Verif.Proofs.PropMemory

/-! # Property theorems: access flags when a tree changes (C134) -/

namespace Flut

open Spec VN

theorem same_of_content {m : VN} {n : PN} (h : content m = n.clear) : SameTree m.toPN n := (PN.sameTree_iff _ _).2 h

/-- C134. Every operation gives the content that the theorems about trees without vectors (C20 to C25) describe. -/
theorem C134_content (k : Str) (n t : VN) (ov : Bool) (i : Nat) :
    SameTree (pushBack k n t).toPN (PN.pushBack k n.toPN t.toPN) ∧ SameTree (pushMove k n t).toPN (PN.pushBack k n.toPN t.toPN) ∧
    SameTree (VN.set k n t).toPN (PN.set k n.toPN t.toPN) ∧ SameTree (setValue k n t).toPN (PN.set k n.toPN t.toPN) ∧
    SameTree (getOrAdd k t).toPN (PN.getOrAddChild k t.toPN).2 ∧ SameTree (VN.merge ov n t).toPN (PN.merge ov n.toPN t.toPN) ∧
    SameTree (VN.assign t n).toPN n.toPN ∧ SameTree (assignMove t n).toPN n.toPN ∧ SameTree n.copy.toPN n.toPN ∧
    SameTree (VN.read k t).toPN t.toPN ∧ SameTree (reserve i t).toPN t.toPN := by
  refine ⟨same_of_content (content_pushBack k n t), same_of_content (content_pushMove k n t), same_of_content (content_set k n t),
    same_of_content (content_setValue k n t), same_of_content (content_getOrAdd k t), same_of_content ?_, same_of_content (content_assign t n),
    same_of_content (content_assignMove t n), same_of_content (content_copy n), same_of_content (content_read k t),
    same_of_content (content_reserve i t)⟩
  rw [VN.merge, content_mergeLoop]
  obtain ⟨a, v, c, cs⟩ := t
  obtain ⟨b, w, d, ds⟩ := n
  rfl

/-- C134. So does `erase`. -/
theorem C134_erase_content (i : Nat) (t : VN) :
    (count t ≤ i ∧ VN.erase i t = .ub ∧ PN.eraseAt i t.toPN = .ub) ∨
    ∃ t' s, VN.erase i t = .ok t' ∧ PN.eraseAt i t.toPN = .ok s ∧ SameTree t'.toPN s := by
  obtain ⟨a, v, c, cs⟩ := t
  have hl : (toPNAll cs).length = cs.length := by simp [toPNAll_eq]
  by_cases h : i < cs.length
  · refine Or.inr ⟨_, _, if_pos h, if_pos (by rw [hl]; exact h), same_of_content ?_⟩
    rw [content_mk, contentAll_shiftDown, PN.clear]
    congr 1
    rw [contentAll, PN.clearAll_eq, PN.clearAll_eq]
    generalize toPNAll cs = l
    clear h hl
    induction l generalizing i with
    | nil => rfl
    | cons x l ih => cases i <;> simp [ih]
  · exact Or.inl ⟨by simpa [count] using h, if_neg h, if_neg (by rw [hl]; exact h)⟩

/-- C134. Adding a child while there is room changes no flag, and the new node has not been accessed. -/
theorem C134_room (k : Str) (n t : VN) (h : count t < room t) :
    (∀ p b, flagAt p t = some b → flagAt p (pushBack k n t) = some b ∧ flagAt p (pushMove k n t) = some b) ∧
    flagAt [count t] (pushMove k n t) = some false ∧ ∀ p, flagAt (count t :: p) (pushBack k n t) ≠ some true := by
  obtain ⟨a, v, c, cs⟩ := t
  have h : cs.length < c := h
  have one : ∀ x : Str × VN, ∀ p b, flagAt p (mk a v c cs) = some b → flagAt p (mk a v c (cs ++ [x])) = some b := by
    intro x p b hp
    cases p with
    | nil => exact hp
    | cons i p =>
      rw [flagAt_cons] at hp ⊢
      by_cases hi : i < cs.length
      · rw [append_get hi]; exact hp
      · rw [List.getElem?_eq_none (by omega)] at hp; cases hp
  refine ⟨fun p b hp => ?_, ?_, fun p => ?_⟩
  · simp only [pushBack, pushMove, append_room h]
    exact ⟨one _ p b hp, one _ p b hp⟩
  · simp only [pushMove, append_room h, count, flagAt_cons, List.getElem?_concat_length]
    obtain ⟨_, _, _, _⟩ := n; rfl
  · simp only [pushBack, append_room h, count, flagAt_cons, List.getElem?_concat_length, Option.bind_some]
    have : n.copy.move = n.copy := by obtain ⟨_, _, _, _⟩ := n; rfl
    rw [this, flagAt_copy]
    cases flagAt p n <;> simp

/-- C134. Adding a child when there is no room clears the flags of all other descendants; that of the node itself stays. -/
theorem C134_full (k : Str) (n t : VN) (h : room t ≤ count t) :
    (∀ i p b, flagAt (i :: p) t = some b → flagAt (i :: p) (pushBack k n t) = some false ∧ flagAt (i :: p) (pushMove k n t) = some false) ∧
    flagAt [] (pushBack k n t) = flagAt [] t ∧ flagAt [] (pushMove k n t) = flagAt [] t := by
  obtain ⟨a, v, c, cs⟩ := t
  have h : c ≤ cs.length := h
  refine ⟨fun i p b hp => ?_, rfl, rfl⟩
  simp only [pushBack, pushMove, append_full h]
  rw [flagAt_cons] at hp
  rw [flagAt_cons, flagAt_cons]
  have hi : i < cs.length := by
    refine Classical.byContradiction fun hi => ?_
    rw [List.getElem?_eq_none (by omega)] at hp; cases hp
  rw [append_get (by simpa using hi), append_get (by simpa using hi), flagAt_copyAll, hp]
  exact ⟨rfl, rfl⟩

/-- The operation of the code. -/
def useOp : Use → VN → VN
  | .read k => VN.read k
  | .add k n => pushBack k n
  | .need k => getOrAdd k

theorem use_step (u : Use) (t : VN) (h : count t < room t) : room (useOp u t) = room t ∧ count (useOp u t) ≤ count t + 1 ∧
    ∀ p, flagAt p t = some true → flagAt p (useOp u t) = some true := by
  obtain ⟨a, v, c, cs⟩ := t
  have h' : cs.length < c := h
  have acs : ∀ p, flagAt p (mk a v c cs) = some true → flagAt p (mk true v c cs) = some true := by
    intro p hp; cases p with
    | nil => rfl
    | cons i p => rw [flagAt_cons] at hp ⊢; exact hp
  cases u with
  | read k =>
    refine ⟨?_, ?_, fun p hp => read_keeps k _ p hp⟩
    · simp only [useOp, VN.read]; split <;> rfl
    · simp only [useOp, VN.read]; split <;> simp [count]
  | add k n =>
    refine ⟨?_, ?_, fun p hp => ((C134_room k n _ h).1 p true hp).1⟩
    · simp only [useOp, pushBack, append_room h']; rfl
    · simp only [useOp, pushBack, append_room h']; simp [count]
  | need k =>
    simp only [useOp, getOrAdd]
    cases hf : VN.findIdx k cs with
    | none =>
      refine ⟨?_, ?_, fun p hp => ((C134_room k VN.nil (mk true v c cs) h).1 p true (acs p hp)).2⟩
      · simp only [pushMove, append_room h']; rfl
      · simp only [pushMove, append_room h']; simp [count]
    | some i =>
      refine ⟨rfl, by simp [count], fun p hp => ?_⟩
      have := read_keeps k _ p hp
      simpa only [VN.read, hf] using this

/-- C134. While the children fit, no sequence of reads and additions clears a flag. -/
theorem C134_uses (us : List Use) (t : VN) (h : count t + us.length ≤ room t) (p : List Nat) (hp : flagAt p t = some true) :
    flagAt p (us.foldl (fun t u => useOp u t) t) = some true := by
  induction us generalizing t with
  | nil => exact hp
  | cons u us ih =>
    obtain ⟨h1, h2, h3⟩ := use_step u t (by simp at h; omega)
    simp only [List.length_cons] at h
    exact ih (useOp u t) (by omega) (h3 p hp)

theorem findIdx_none {k : Str} {cs : List (Str × VN)} (h : k ∉ cs.map Prod.fst) : VN.findIdx k cs = none := by
  induction cs with
  | nil => rfl
  | cons kn cs ih =>
    obtain ⟨k', n⟩ := kn
    simp only [List.map_cons, List.mem_cons, not_or] at h
    simp only [VN.findIdx, if_neg (Ne.symm h.1), ih h.2]
    rfl

theorem findIdx_some {k : Str} {cs : List (Str × VN)} {i : Nat} (h : (cs.map Prod.fst)[i]? = some k) (h' : k ∉ (cs.map Prod.fst).take i) :
    VN.findIdx k cs = some i := by
  induction cs generalizing i with
  | nil => simp at h
  | cons kn cs ih =>
    obtain ⟨k', n⟩ := kn
    cases i with
    | zero =>
      simp only [List.map_cons, List.getElem?_cons_zero, Option.some.injEq] at h
      simp only [VN.findIdx, if_pos h]
    | succ i =>
      simp only [List.map_cons, List.getElem?_cons_succ] at h
      simp only [List.map_cons, List.take_succ_cons, List.mem_cons, not_or] at h'
      simp only [VN.findIdx, if_neg (Ne.symm h'.1), ih h h'.2]
      rfl

/-- C134. `set` and `operator[]` add a missing child as `push_back` does, after the node has been accessed. -/
theorem C134_set_new (k : Str) (n t : VN) (h : k ∉ keysOf t) :
    VN.set k n t = pushBack k n (VN.access t) ∧ setValue k n t = pushMove k n (VN.access t) ∧
    getOrAdd k t = pushMove k VN.nil (VN.access t) := by
  obtain ⟨a, v, c, cs⟩ := t
  have h := findIdx_none h
  simp only [VN.set, setValue, getOrAdd, h]
  exact ⟨rfl, rfl, rfl⟩

/-- C134. `set` on a child that is there assigns to this child, and leaves the others and the memory as they are. -/
theorem C134_set (k : Str) (n t : VN) (i : Nat) (h : (keysOf t)[i]? = some k) (h' : k ∉ (keysOf t).take i) :
    (∀ j p, j ≠ i → at? (j :: p) (VN.set k n t) = at? (j :: p) t ∧ at? (j :: p) (setValue k n t) = at? (j :: p) t) ∧
    (∀ m, at? [i] t = some m → at? [i] (VN.set k n t) = some (VN.assign m n) ∧ at? [i] (setValue k n t) = some (assignMove m n)) ∧
    flagAt [] (VN.set k n t) = some true ∧ flagAt [] (setValue k n t) = some true ∧
    room (VN.set k n t) = room t ∧ room (setValue k n t) = room t ∧ keysOf (VN.set k n t) = keysOf t ∧ keysOf (setValue k n t) = keysOf t := by
  obtain ⟨a, v, c, cs⟩ := t
  have hi := findIdx_some h h'
  have other : ∀ (g : VN → VN) (cs : List (Str × VN)) (i j : Nat), j ≠ i → (VN.modifyAt g i cs)[j]? = cs[j]? := by
    intro g cs
    induction cs with
    | nil => intro i j _; cases i <;> rfl
    | cons kn cs ih =>
      intro i j hj
      obtain ⟨k, m⟩ := kn
      cases i with
      | zero => cases j with
        | zero => exact absurd rfl hj
        | succ j => rfl
      | succ i => cases j with
        | zero => rfl
        | succ j => simpa [VN.modifyAt] using ih i j (by omega)
  have self : ∀ (g : VN → VN) (cs : List (Str × VN)) (i : Nat), (VN.modifyAt g i cs)[i]? = cs[i]?.map fun kn => (kn.1, g kn.2) := by
    intro g cs
    induction cs with
    | nil => intro i; cases i <;> rfl
    | cons kn cs ih =>
      intro i
      obtain ⟨k, m⟩ := kn
      cases i with
      | zero => rfl
      | succ i => simpa [VN.modifyAt] using ih i
  have keys : ∀ (g : VN → VN) (cs : List (Str × VN)) (i : Nat), (VN.modifyAt g i cs).map Prod.fst = cs.map Prod.fst := by
    intro g cs
    induction cs with
    | nil => intro i; cases i <;> rfl
    | cons kn cs ih =>
      intro i
      obtain ⟨k, m⟩ := kn
      cases i with
      | zero => rfl
      | succ i => simp [VN.modifyAt, ih i]
  simp only [VN.set, setValue, hi]
  refine ⟨fun j p hj => ?_, fun m hm => ?_, rfl, rfl, rfl, rfl, keys _ _ _, keys _ _ _⟩
  · simp only [at?_cons, other _ cs i j hj, and_self]
  · rw [at?_cons] at hm
    simp only [at?_cons, self]
    cases hc : cs[i]? with
    | none => rw [hc] at hm; simp at hm
    | some kn =>
      rw [hc] at hm
      simp only [Option.bind_some, at?, Option.some.injEq] at hm
      subst hm
      exact ⟨rfl, rfl⟩

/-- C134. While the children fit, merging without overwriting clears no flag. -/
theorem C134_merge (n t : VN) (h : count t + count n ≤ room t) (p : List Nat) (hp : flagAt p t = some true) :
    flagAt p (VN.merge false n t) = some true := by
  obtain ⟨b, w, d, ds⟩ := n
  change count t + ds.length ≤ room t at h
  change flagAt p (VN.mergeLoop false ds t) = some true
  induction ds generalizing t with
  | nil => exact hp
  | cons kn ds ih =>
    obtain ⟨k, m⟩ := kn
    obtain ⟨a, v, c, cs⟩ := t
    have hc : cs.length + (ds.length + 1) ≤ c := h
    have hp' : flagAt p (mk true v c cs) = some true := by
      cases p with
      | nil => rfl
      | cons i p => rw [flagAt_cons] at hp ⊢; exact hp
    simp only [VN.mergeLoop]
    cases hf : VN.findIdx k cs with
    | none =>
      refine ih (pushBack k m (mk true v c cs)) ((C134_room k m (mk true v c cs) (show cs.length < c by omega)).1 p true hp').1 ?_
      simp only [pushBack, append_room (show cs.length < c by omega)]
      simp only [count, room, List.length_append, List.length_singleton]
      omega
    | some i => exact ih (mk true v c cs) hp' (by simp only [count, room]; omega)

/-- C134. `reserve` makes room for as many children as are asked for; where it has to, it clears the flags below the node. -/
theorem C134_reserve (n : Nat) (t : VN) : room (reserve n t) = max (room t) n ∧ count (reserve n t) = count t ∧
    (n ≤ room t → reserve n t = t) ∧ (room t < n → ∀ i p, flagAt (i :: p) (reserve n t) ≠ some true) := by
  obtain ⟨a, v, c, cs⟩ := t
  by_cases h : c < n
  · simp only [reserve, if_pos h, room, count]
    refine ⟨by omega, by simp, fun h' => absurd h (by omega), fun _ i p => ?_⟩
    rw [flagAt_cons, flagAt_copyAll]
    cases (cs[i]?.bind fun kn => flagAt p kn.2) <;> simp
  · simp only [reserve, if_neg h, room, count]
    exact ⟨by omega, trivial, fun _ => trivial, fun h' => absurd h' h⟩

/-- C134. The room of a node that is filled child by child is the next power of two, so that the flags are cleared whenever the number of children before
the addition is one of 1, 2, 4, 8, ... -/
theorem C134_growth (kvs : List (Str × VN)) (hne : kvs ≠ []) :
    let t := kvs.foldl (fun t kv => pushBack kv.1 kv.2 t) VN.nil
    count t = kvs.length ∧ (∃ e, room t = 2 ^ e) ∧ kvs.length ≤ room t ∧ room t < 2 * kvs.length ∧
    (room t ≤ count t ↔ ∃ e, kvs.length = 2 ^ e) := by
  have grow : ∀ (kvs : List (Str × VN)) (t : VN), (∃ e, room t = 2 ^ e) → 1 ≤ count t → count t ≤ room t → room t < 2 * count t →
      let t' := kvs.foldl (fun t kv => pushBack kv.1 kv.2 t) t
      count t' = count t + kvs.length ∧ (∃ e, room t' = 2 ^ e) ∧ count t' ≤ room t' ∧ room t' < 2 * count t' := by
    intro kvs
    induction kvs with
    | nil => intro t h1 _ h2 h3; exact ⟨rfl, h1, h2, h3⟩
    | cons kv kvs ih =>
      rintro ⟨a, v, c, cs⟩ ⟨e, he⟩ h0 h1 h2
      have he : c = 2 ^ e := he
      have h0 : 1 ≤ cs.length := h0
      have h1 : cs.length ≤ c := h1
      have h2 : c < 2 * cs.length := h2
      have step : ∃ t', pushBack kv.1 kv.2 (mk a v c cs) = t' ∧ (∃ e, room t' = 2 ^ e) ∧ count t' = cs.length + 1 ∧ cs.length + 1 ≤ room t' ∧
          room t' < 2 * (cs.length + 1) := by
        by_cases hr : cs.length < c
        · refine ⟨_, rfl, ?_⟩
          simp only [pushBack, append_room hr, room, count, List.length_append, List.length_cons, List.length_nil]
          exact ⟨⟨e, he⟩, trivial, by omega, by omega⟩
        · refine ⟨_, rfl, ?_⟩
          simp only [pushBack, append_full (Nat.le_of_not_lt hr), room, count, List.length_append, List.length_cons, List.length_nil, copyAll_length]
          refine ⟨⟨e + 1, ?_⟩, trivial, by omega, by omega⟩
          rw [Nat.pow_succ]; omega
      obtain ⟨t', e1, g1, g2, g3, g4⟩ := step
      have := ih t' g1 (by omega) (by omega) (by omega)
      simp only [List.foldl_cons, e1, List.length_cons]
      refine ⟨?_, this.2⟩
      rw [this.1, g2]; simp only [count]; omega
  obtain ⟨kv, kvs, rfl⟩ := List.exists_cons_of_ne_nil hne
  have := grow kvs (pushBack kv.1 kv.2 VN.nil) ⟨0, rfl⟩ (Nat.le_refl 1) (Nat.le_refl 1) (show 1 < 2 from by omega)
  simp only [List.foldl_cons]
  obtain ⟨h1, ⟨e, h2⟩, h3, h4⟩ := this
  have hc : count (pushBack kv.1 kv.2 VN.nil) = 1 := rfl
  rw [hc] at h1
  simp only [List.length_cons]
  refine ⟨by omega, ⟨e, h2⟩, by omega, by omega, fun h => ⟨e, by omega⟩, fun ⟨e', h5⟩ => ?_⟩
  rw [h1] at h3 h4 ⊢
  rw [h2] at h3 h4 ⊢
  rw [Nat.add_comm 1, h5] at h3 h4 ⊢
  have a1 : e' ≤ e := (Nat.pow_le_pow_iff_right (by omega)).1 h3
  rw [Nat.mul_comm, ← Nat.pow_succ] at h4
  have a2 : e < e' + 1 := (Nat.pow_lt_pow_iff_right (by omega)).1 h4
  exact Nat.pow_le_pow_right (by omega) (by omega)

/-- C134. When a child is erased, the children behind it move up, but their own flags stay where they were; those below them move along. -/
theorem C134_erase (i : Nat) (t t' : VN) (h : VN.erase i t = .ok t') :
    (∀ j, j + 1 < count t → flagAt [j] t' = flagAt [j] t) ∧ flagAt [] t' = flagAt [] t ∧
    (∀ j p, j < i → flagAt (j :: p) t' = flagAt (j :: p) t) ∧
    (∀ j l p, i ≤ j → flagAt (j :: l :: p) t' = flagAt ((j + 1) :: l :: p) t) := by
  obtain ⟨a, v, c, cs⟩ := t
  simp only [VN.erase] at h
  split at h
  · injection h with h
    subst h
    rename_i hi
    refine ⟨fun j hj => ?_, rfl, fun j p hj => ?_, fun j l p hj => ?_⟩
    · rw [flagAt_cons, flagAt_cons]
      change j + 1 < cs.length at hj
      clear hi
      induction cs generalizing i j with
      | nil => cases i <;> rfl
      | cons kn cs ih =>
        obtain ⟨k, m⟩ := kn
        cases i with
        | zero =>
          cases cs with
          | nil => simp at hj
          | cons kn' cs =>
            obtain ⟨k', n⟩ := kn'
            rw [shiftDown]
            cases j with
            | zero => obtain ⟨_, _, _, _⟩ := m; obtain ⟨_, _, _, _⟩ := n; rfl
            | succ j =>
              simp only [List.getElem?_cons_succ]
              exact ih 0 j (by simpa using hj)
        | succ i =>
          rw [shiftDown]
          cases j with
          | zero => rfl
          | succ j => simp only [List.getElem?_cons_succ]; exact ih i j (by simpa using hj)
    · rw [flagAt_cons, flagAt_cons]
      have : (shiftDown i cs)[j]? = cs[j]? := by
        clear hi
        induction cs generalizing i j with
        | nil => cases i <;> rfl
        | cons kn cs ih =>
          cases i with
          | zero => omega
          | succ i =>
            rw [shiftDown]
            cases j with
            | zero => rfl
            | succ j => simp only [List.getElem?_cons_succ]; exact ih i j (by omega)
      rw [this]
    · rw [flagAt_cons, flagAt_cons]
      clear hi
      induction cs generalizing i j with
      | nil => cases i <;> rfl
      | cons kn cs ih =>
        obtain ⟨k, m⟩ := kn
        cases i with
        | zero =>
          cases cs with
          | nil => rfl
          | cons kn' cs =>
            obtain ⟨k', n⟩ := kn'
            rw [shiftDown]
            cases j with
            | zero =>
              obtain ⟨_, _, _, _⟩ := m; obtain ⟨_, _, _, _⟩ := n
              simp only [List.getElem?_cons_zero, List.getElem?_cons_succ, Option.bind_some, assignMove, flagAt_cons]
            | succ j =>
              simp only [List.getElem?_cons_succ]
              exact ih 0 j (by omega)
        | succ i =>
          rw [shiftDown]
          cases j with
          | zero => omega
          | succ j => simp only [List.getElem?_cons_succ]; exact ih i j (by omega)
  · cases h

/-- C134. When a node is assigned a copy of another, a flag that is set afterwards was set before at the same place, whatever was there; the flags of the
children that it had stay if the new children fit into the room of the old ones, and are cleared otherwise. -/
theorem C134_assign (m n : VN) :
    (∀ p, flagAt p (VN.assign m n) = some true → flagAt p m = some true) ∧ flagAt [] (VN.assign m n) = flagAt [] m ∧
    (count n ≤ room m → ∀ j, j < count m → j < count n → flagAt [j] (VN.assign m n) = flagAt [j] m) ∧
    (room m < count n → ∀ i p, flagAt (i :: p) (VN.assign m n) ≠ some true) := by
  have flags : ∀ p (m n : VN), flagAt p (VN.assign m n) = some true → flagAt p m = some true := by
    intro p
    induction p with
    | nil =>
      rintro ⟨a, v, c, cs⟩ ⟨b, w, d, ds⟩ h
      simp only [VN.assign] at h
      split at h <;> exact h
    | cons i p ih =>
      rintro ⟨a, v, c, cs⟩ ⟨b, w, d, ds⟩ h
      simp only [VN.assign] at h
      split at h
      · rw [flagAt_cons, flagAt_copyAll] at h
        cases hx : (ds[i]?.bind fun kn => flagAt p kn.2) <;> rw [hx] at h <;> simp at h
      · rw [flagAt_cons] at h ⊢
        rename_i hc
        clear hc
        induction cs generalizing ds i with
        | nil =>
          cases ds with
          | nil => cases h
          | cons x ds =>
            obtain ⟨k, n⟩ := x
            have e : assignAll [] ((k, n) :: ds) = copyAll ((k, n) :: ds) := rfl
            rw [e, flagAt_copyAll] at h
            cases hx : (((k, n) :: ds)[i]?.bind fun kn => flagAt p kn.2) <;> rw [hx] at h <;> simp at h
        | cons y cs ihc =>
          obtain ⟨k', m⟩ := y
          cases ds with
          | nil => cases h
          | cons x ds =>
            obtain ⟨k, n⟩ := x
            rw [assignAll] at h
            cases i with
            | zero => exact ih m n h
            | succ i => exact ihc (ds := ds) (i := i) h
  refine ⟨fun p => flags p m n, ?_, ?_, ?_⟩
  · obtain ⟨a, v, c, cs⟩ := m
    obtain ⟨b, w, d, ds⟩ := n
    simp only [VN.assign]; split <;> rfl
  · obtain ⟨a, v, c, cs⟩ := m
    obtain ⟨b, w, d, ds⟩ := n
    intro h j hj hj'
    change ds.length ≤ c at h
    simp only [VN.assign, if_neg (Nat.not_lt.2 h)]
    rw [flagAt_cons, flagAt_cons]
    clear h
    induction cs generalizing ds j with
    | nil => simp [count] at hj
    | cons y cs ih =>
      obtain ⟨k', m⟩ := y
      cases ds with
      | nil => simp [count] at hj'
      | cons x ds =>
        obtain ⟨k, n⟩ := x
        rw [assignAll]
        cases j with
        | zero =>
          obtain ⟨_, _, _, _⟩ := m; obtain ⟨_, _, _, _⟩ := n
          simp only [List.getElem?_cons_zero, Option.bind_some, VN.assign]
          split <;> rfl
        | succ j =>
          simp only [List.getElem?_cons_succ]
          exact ih ds j (by simpa [count] using hj) (by simpa [count] using hj')
  · obtain ⟨a, v, c, cs⟩ := m
    obtain ⟨b, w, d, ds⟩ := n
    intro h i p
    simp only [VN.assign, if_pos (show c < ds.length from h)]
    rw [flagAt_cons, flagAt_copyAll]
    cases (ds[i]?.bind fun kn => flagAt p kn.2) <;> simp

/-- A node with one child that has been read. -/
def oneRead : VN := VN.read b!"a" (setValue b!"a" (VN.leaf b!"1") VN.nil)

/-- C134. A value that was read counts as unaccessed again after another child has been asked for that is added thereby. -/
theorem C134_lost_refuted : ∃ (t : VN) (k k' : Str), keysOf t = [k] ∧ k ≠ k' ∧ flagAt [0] (VN.read k t) = some true ∧
    keysOf (getOrAdd k' (VN.read k t)) = [k, k'] ∧ flagAt [0] (getOrAdd k' (VN.read k t)) = some false :=
  ⟨setValue b!"a" (VN.leaf b!"1") VN.nil, b!"a", b!"b", rfl, by decide, rfl, rfl, rfl⟩

/-- C134. After a child has been erased, the next one has its flag: one that was read counts as unaccessed, and one that was not read as accessed. -/
theorem C134_erase_refuted : ∃ (t t1 t2 : VN), keysOf t = [b!"a", b!"b"] ∧
    VN.erase 0 (VN.read b!"b" t) = .ok t1 ∧ keysOf t1 = [b!"b"] ∧ flagAt [0] t1 = some false ∧
    VN.erase 0 (VN.read b!"a" t) = .ok t2 ∧ keysOf t2 = [b!"b"] ∧ flagAt [0] t2 = some true :=
  ⟨setValue b!"b" (VN.leaf b!"2") (setValue b!"a" (VN.leaf b!"1") VN.nil), _, _, rfl, rfl, rfl, rfl, rfl, rfl, rfl⟩

/-- C134. A tree that was assigned and never read can count as accessed everywhere. -/
theorem C134_assign_refuted : ∃ (t n : VN), (∀ p, flagAt p n ≠ some true) ∧ keysOf n = [b!"c"] ∧ keysOf (VN.assign t n) = [b!"c"] ∧
    flagAt [] (VN.assign t n) = some true ∧ flagAt [0] (VN.assign t n) = some true := by
  refine ⟨oneRead, (setValue b!"c" (VN.leaf b!"2") VN.nil).copy, fun p => ?_, rfl, rfl, rfl, rfl⟩
  rw [flagAt_copy]
  cases flagAt p (setValue b!"c" (VN.leaf b!"2") VN.nil) <;> simp

/-- A key that is there, one that is not, and nodes that fit into a reserved one. -/
example : (keysOf (setValue b!"a" (VN.leaf b!"1") VN.nil))[0]? = some b!"a" ∧ b!"b" ∉ keysOf (setValue b!"a" (VN.leaf b!"1") VN.nil) ∧
    count (reserve 4 (setValue b!"a" (VN.leaf b!"1") VN.nil)) + count (setValue b!"b" (VN.leaf b!"2") VN.nil) ≤
      room (reserve 4 (setValue b!"a" (VN.leaf b!"1") VN.nil)) := by decide

/-- The hypotheses hold in programs: there is room for two further children here, and none there. -/
example : count (reserve 4 (VN.read b!"a" (setValue b!"a" (VN.leaf b!"1") VN.nil))) = 1 ∧
    room (reserve 4 (VN.read b!"a" (setValue b!"a" (VN.leaf b!"1") VN.nil))) = 4 ∧
    count oneRead = 1 ∧ room oneRead = 1 ∧ flagAt [0] (VN.read b!"a" (reserve 4 oneRead)) = some true ∧
    flagAt [0] (getOrAdd b!"b" (VN.read b!"a" (reserve 4 oneRead))) = some true := ⟨rfl, rfl, rfl, rfl, rfl, rfl⟩

end Flut
