import Verif.Model.PropAlias
import Verif.Proofs.PropMemory

/-! # Lemmas: nodes that are assigned or merged with a part of themselves -/

namespace Flut

open Spec

namespace VN

/-- The steps of the assignment, with the child named. -/
theorem assignOwn_eq {i : Nat} {a v c cs k} {n : VN} (h : cs[i]? = some (k, n)) : assignOwn i (mk a v c cs) =
    if c < n.children.length then .ok (mk a n.value n.children.length (copyAll n.children))
    else match n.children[i]? with
      | none => .ok (mk a n.value c (assignAll cs n.children))
      | some (k', m) => (do
        let n' ← assignOwn i n
        let front := assignAll (cs.take i) (n.children.take i) ++ [(k', n')]
        if n.children.length = i + 1 then .ok (mk a n.value c front)
        else if i + 1 < cs.length ∧ n.cap < m.children.length then .ub
        else if n'.children.length < n.children.length then .ub
        else if cs.length < n.children.length ∧ c < n'.children.length then .ub
        else .ok (mk a n.value c (front ++ assignAll (cs.drop (i + 1)) ((n'.children.take n.children.length).drop (i + 1))))) := by
  rw [assignOwn]
  split
  · rename_i h'; rw [h] at h'; cases h'
  · rename_i k' n' h'
    rw [h] at h'
    cases h'
    rfl

theorem assignAll_length (cs ds : List (Str × VN)) : (assignAll cs ds).length = ds.length := by
  have := congrArg List.length (contentAll_assign cs ds)
  simpa [contentAll_eq] using this

theorem sizeOf_child {i : Nat} {a v c cs k} {n : VN} (h : cs[i]? = some (k, n)) : sizeOf n < sizeOf (mk a v c cs) := by
  have h1 := List.sizeOf_lt_of_mem (List.mem_of_getElem? h)
  simp at h1 ⊢
  omega

theorem assignOwn_total (i : Nat) (t : VN) : (∀ e, assignOwn i t ≠ .throws e) ∧ assignOwn i t ≠ .diverges := by
  have : ∀ s (t : VN), sizeOf t ≤ s → (∃ t', assignOwn i t = .ok t') ∨ assignOwn i t = .ub := by
    intro s
    induction s with
    | zero => rintro ⟨_, _, _, _⟩ h; simp at h
    | succ s ih =>
      rintro ⟨a, v, c, cs⟩ hs
      cases h : cs[i]? with
      | none =>
        right
        rw [assignOwn]
        split
        · rfl
        · rename_i h'; rw [h] at h'; cases h'
      | some kn =>
        obtain ⟨k, n⟩ := kn
        have := sizeOf_child (a := a) (v := v) (c := c) h
        rw [assignOwn_eq h]
        split
        · exact Or.inl ⟨_, rfl⟩
        · cases n.children[i]? with
          | none => exact Or.inl ⟨_, rfl⟩
          | some km =>
            rcases ih n (by omega) with ⟨n', hn⟩ | hn
            · simp only [hn, Res.bind_ok]
              repeat' split
              all_goals first | exact Or.inl ⟨_, rfl⟩ | exact Or.inr rfl
            · right; simp only [hn]; rfl
  rcases this _ t (Nat.le_refl _) with ⟨t', h⟩ | h <;> rw [h] <;> simp

/-- If the assignment works, the node has as many children as the child had, or the block was too small. -/
theorem assignOwn_length {i : Nat} {a v c cs k} {n t' : VN} (h : cs[i]? = some (k, n)) (ht : assignOwn i (mk a v c cs) = .ok t') :
    t'.children.length = n.children.length := by
  rw [assignOwn_eq h] at ht
  split at ht
  · injection ht with ht; subst ht; simp [children]
  · cases hm : n.children[i]? with
    | none => rw [hm] at ht; injection ht with ht; subst ht; simp [children, assignAll_length]
    | some km =>
      obtain ⟨k', m⟩ := km
      have hi : i < n.children.length := by
        refine Classical.byContradiction fun hi => ?_
        rw [List.getElem?_eq_none (by omega)] at hm; cases hm
      rw [hm] at ht
      obtain ⟨n', -, ht⟩ := Res.bind_eq_ok.1 ht
      dsimp only at ht
      split at ht
      · injection ht with ht; subst ht; simp [children, assignAll_length] at *; omega
      · split at ht
        · cases ht
        · split at ht
          · cases ht
          · split at ht
            · cases ht
            · injection ht with ht; subst ht
              simp [children, assignAll_length] at *; omega

theorem assignOwn_step {i : Nat} {t n : VN} {k : Str} (h : t.children[i]? = some (k, n)) : assignOwn i t =
    if t.cap < n.children.length then .ok (mk t.acc n.value n.children.length (copyAll n.children))
    else match n.children[i]? with
      | none => .ok (mk t.acc n.value t.cap (assignAll t.children n.children))
      | some (k', m) => (do
        let n' ← assignOwn i n
        let front := assignAll (t.children.take i) (n.children.take i) ++ [(k', n')]
        if n.children.length = i + 1 then .ok (mk t.acc n.value t.cap front)
        else if i + 1 < t.children.length ∧ n.cap < m.children.length then .ub
        else if n'.children.length < n.children.length then .ub
        else if t.children.length < n.children.length ∧ t.cap < n'.children.length then .ub
        else .ok (mk t.acc n.value t.cap (front ++ assignAll (t.children.drop (i + 1)) ((n'.children.take n.children.length).drop (i + 1))))) := by
  obtain ⟨a, v, c, cs⟩ := t
  exact assignOwn_eq h

theorem assignOwn_size {i : Nat} {t n t' : VN} {k : Str} (h : t.children[i]? = some (k, n)) (ht : assignOwn i t = .ok t') :
    t'.children.length = n.children.length := by
  obtain ⟨a, v, c, cs⟩ := t
  exact assignOwn_length h ht

theorem sizeOf_kid {i : Nat} {t n : VN} {k : Str} (h : t.children[i]? = some (k, n)) : sizeOf n < sizeOf t := by
  obtain ⟨a, v, c, cs⟩ := t
  exact sizeOf_child h

/-- The assignment of a node by a child that is not the last one, has more children than its index plus one, and whose children fit. -/
theorem assignOwn_ub (s : Nat) : ∀ (i : Nat) (t : VN) (k : Str) (n : VN), sizeOf n ≤ s →
    t.children[i]? = some (k, n) → i + 1 < t.children.length → i + 1 < n.children.length → n.children.length ≤ t.cap → assignOwn i t = .ub := by
  induction s with
  | zero =>
    intro i t k n hs
    obtain ⟨_, _, _, _⟩ := n
    simp at hs
  | succ s ih =>
    intro i t k n hs h h1 h2 h3
    rw [assignOwn_step h, if_neg (by omega)]
    have hm : ∃ k' m, n.children[i]? = some (k', m) := ⟨_, _, List.getElem?_eq_getElem (by omega)⟩
    obtain ⟨k', m, hm⟩ := hm
    rw [hm]
    have hsm : sizeOf m ≤ s := by have := sizeOf_kid hm; omega
    by_cases hd : n.cap < m.children.length
    · have : assignOwn i n = .ok (mk n.acc m.value m.children.length (copyAll m.children)) := by rw [assignOwn_step hm, if_pos hd]
      simp only [this, Res.bind_ok]
      rw [if_neg (by omega), if_pos ⟨h1, hd⟩]
    · by_cases hl : m.children.length < n.children.length
      · cases hr : assignOwn i n with
        | ok n' =>
          have := assignOwn_size hm hr
          simp only [hr, Res.bind_ok]
          rw [if_neg (by omega), if_neg (by omega), if_pos (by omega)]
        | ub => simp only [hr]; rfl
        | throws e => exact absurd hr ((assignOwn_total _ _).1 e)
        | diverges => exact absurd hr (assignOwn_total _ _).2
      · simp only [ih i n k' m hsm hm h2 (by omega) (by omega)]
        rfl

/-- Copies of trees have no spare room. -/
theorem children_copy (n : VN) : n.copy.children = copyAll n.children := by cases n; rfl
theorem cap_copy (n : VN) : n.copy.cap = n.children.length := by cases n; rfl
theorem value_copy (n : VN) : n.copy.value = n.value := by cases n; rfl

theorem content_of (n : VN) : content n = .mk false n.value (contentAll n.children) := by cases n; rfl

/-- A child with as many children as its index plus one, in a copied tree. -/
theorem assignOwn_last (s : Nat) : ∀ (i : Nat) (t : VN) (k : Str) (n : VN), sizeOf n ≤ s → t.children[i]? = some (k, n.copy) →
    n.children.length ≤ i + 1 → ∃ t', assignOwn i t = .ok t' ∧ content t' = content n := by
  induction s with
  | zero =>
    intro i t k n hs
    obtain ⟨_, _, _, _⟩ := n
    simp at hs
  | succ s ih =>
    intro i t k n hs h h1
    rw [assignOwn_step h]
    split
    · refine ⟨_, rfl, ?_⟩
      rw [content_mk, contentAll_copy, ← content_of, content_copy]
    · cases hm : n.children[i]? with
      | none =>
        have : n.copy.children[i]? = none := by
          rw [children_copy, copyAll_eq, List.getElem?_map, hm]; rfl
        rw [this]
        refine ⟨_, rfl, ?_⟩
        rw [content_mk, contentAll_assign, ← content_of, content_copy]
      | some km =>
        obtain ⟨k', m⟩ := km
        have hi : i < n.children.length := by
          refine Classical.byContradiction fun hi => ?_
          rw [List.getElem?_eq_none (by omega)] at hm; cases hm
        have hc : n.copy.children[i]? = some (k', m.copy) := by
          rw [children_copy, copyAll_eq, List.getElem?_map, hm]; rfl
        rw [hc]
        have hsm : sizeOf m ≤ s := by have := sizeOf_kid hm; omega
        have hn' : ∃ n', assignOwn i n.copy = .ok n' ∧ content n' = content m := by
          by_cases hl : m.children.length ≤ i + 1
          · exact ih i n.copy k' m hsm hc hl
          · refine ⟨_, by rw [assignOwn_step hc, if_pos (by rw [cap_copy, children_copy, copyAll_length]; omega)], ?_⟩
            rw [content_mk, contentAll_copy, ← content_of, content_copy]
        obtain ⟨n', hn, hcn⟩ := hn'
        simp only [hn, Res.bind_ok]
        rw [if_pos (by rw [children_copy, copyAll_length]; omega)]
        refine ⟨_, rfl, ?_⟩
        rw [content_mk, contentAll_append, contentAll_assign, contentAll_cons, hcn, value_copy, content_of n]
        congr 1
        have e : n.children = n.children.take i ++ [(k', m)] := by
          have h2 := List.take_append_drop i n.children
          rw [List.drop_eq_getElem_cons hi, List.drop_eq_nil_of_le (by omega)] at h2
          have h3 : n.children[i] = (k', m) := by
            have := List.getElem?_eq_getElem hi
            rw [hm] at this; injection this with this; exact this.symm
          rw [h3] at h2
          exact h2.symm
        rw [children_copy]
        conv => rhs; rw [e]
        rw [contentAll_append, contentAll_cons]
        congr 1
        simp [contentAll_eq, copyAll_eq, content_copy, ← List.map_take, Function.comp_def]

/-- Merging with an own child, as long as there is room. -/
theorem mergeOwnLoop_eq (os : List (Str × VN)) (a : Bool) (v : Str) (c : Nat) (cs : List (Str × VN)) (h : cs.length + os.length ≤ c + 1) :
    mergeOwnLoop os (mk a v c cs) = .ok (mergeLoop false os (mk a v c cs)) := by
  induction os generalizing a v c cs with
  | nil => rfl
  | cons o os ih =>
    obtain ⟨k, n⟩ := o
    simp only [mergeOwnLoop, mergeLoop]
    cases hf : findIdx k cs with
    | some i => exact ih _ _ _ _ (by simp at h; omega)
    | none =>
      simp only [List.length_cons] at h
      by_cases hr : cs.length < c
      · rw [if_pos (Or.inl hr)]
        simp only [pushBack, append_room hr]
        exact ih _ _ _ _ (by simp; omega)
      · have : os = [] := List.length_eq_zero_iff.1 (by omega)
        subst this
        rw [if_pos (Or.inr rfl)]
        obtain ⟨_, _, _, _⟩ := pushBack k n (mk true v c cs)
        rfl

/-! ### Contents of children, set and added -/

/-- Set the first child with a key, or add one. -/
def setR (k : Str) (x : PN) : List (Str × PN) → List (Str × PN)
  | [] => [(k, x)]
  | (k', n) :: cs => if k' = k then (k', x) :: cs else (k', n) :: setR k x cs

/-- Add an empty child with a key unless there is one. -/
def addR (k : Str) : List (Str × PN) → List (Str × PN)
  | [] => [(k, .mk false [] [])]
  | (k', n) :: cs => if k' = k then (k', n) :: cs else (k', n) :: addR k cs

theorem setR_addR (k : Str) (x : PN) (cs : List (Str × PN)) : setR k x (addR k cs) = setR k x cs := by
  induction cs with
  | nil => simp [addR, setR]
  | cons kn cs ih =>
    obtain ⟨k', n⟩ := kn
    by_cases h : k' = k <;> simp [addR, setR, h, ih]

theorem addR_present {k : Str} {cs : List (Str × PN)} (h : k ∈ cs.map Prod.fst) : addR k cs = cs := by
  induction cs with
  | nil => simp at h
  | cons kn cs ih =>
    obtain ⟨k', n⟩ := kn
    by_cases hk : k' = k
    · simp [addR, hk]
    · simp only [addR, if_neg hk, List.map_cons, List.mem_cons] at h ⊢
      rw [ih (h.resolve_left fun e => hk e.symm)]

theorem addR_keys {k k' : Str} {cs : List (Str × PN)} (h : k ∈ cs.map Prod.fst) : k ∈ (addR k' cs).map Prod.fst := by
  induction cs with
  | nil => simp at h
  | cons kn cs ih =>
    obtain ⟨k'', n⟩ := kn
    rw [addR]
    split
    · exact h
    · simp only [List.map_cons, List.mem_cons] at h ⊢
      exact h.imp id ih

theorem addR_self (k : Str) (cs : List (Str × PN)) : k ∈ (addR k cs).map Prod.fst := by
  induction cs with
  | nil => simp [addR]
  | cons kn cs ih =>
    obtain ⟨k'', n⟩ := kn
    rw [addR]
    split
    · rename_i e; simp [e]
    · simp only [List.map_cons, List.mem_cons]; exact Or.inr ih

theorem addR_first {k k' : Str} {cs : List (Str × PN)} {x : PN} (h : firstChild k cs = some x) : firstChild k (addR k' cs) = some x := by
  induction cs with
  | nil => cases h
  | cons kn cs ih =>
    obtain ⟨k'', n⟩ := kn
    rw [addR]
    split
    · exact h
    · simp only [firstChild] at h ⊢
      split
      · rename_i e; rwa [if_pos e] at h
      · rename_i e; rw [if_neg e] at h; exact ih h

theorem setR_same {k : Str} {cs : List (Str × PN)} {x : PN} (h : firstChild k cs = some x) : setR k x cs = cs := by
  induction cs with
  | nil => cases h
  | cons kn cs ih =>
    obtain ⟨k', n⟩ := kn
    by_cases hk : k' = k
    · simp only [firstChild, if_pos hk, Option.some.injEq] at h
      simp [setR, hk, h]
    · simp only [firstChild, if_neg hk] at h
      simp [setR, hk, ih h]

theorem first_mem {k : Str} {cs : List (Str × PN)} {x : PN} (h : firstChild k cs = some x) : k ∈ cs.map Prod.fst := by
  refine Classical.byContradiction fun hn => ?_
  rw [PN.firstChild_none.2 hn] at h; cases h

theorem clear_set (k : Str) (x : PN) (t : PN) : (PN.set k x t).clear = .mk false t.value (setR k x.clear (PN.clearAll (kids t))) := by
  obtain ⟨a, v, cs⟩ := t
  have key : ∀ cs : List (Str × PN), PN.clearAll (match PN.findIdx k cs with
      | none => cs ++ [(k, x.clear)]
      | some i => PN.modifyAt (PN.assign · x) i cs) = setR k x.clear (PN.clearAll cs) := by
    intro cs
    induction cs with
    | nil => simp [PN.findIdx, PN.clearAll, setR, PN.clear_clear]
    | cons kn cs ih =>
      obtain ⟨k', n⟩ := kn
      by_cases hk : k' = k
      · simp [PN.findIdx, hk, PN.modifyAt, PN.clearAll, setR, PN.clear_assign]
      · simp only [PN.findIdx, if_neg hk, PN.clearAll, setR]
        rw [← ih]
        cases PN.findIdx k cs <;> simp [PN.modifyAt, PN.clearAll]
  have := key cs
  simp only [PN.set]
  cases h : PN.findIdx k cs with
  | none => rw [h] at this; simpa [PN.pushBack, PN.clear, PN.value, kids] using this
  | some i => rw [h] at this; simpa [PN.clear, PN.value, kids] using this

theorem clear_add (k : Str) (t : PN) : (PN.getOrAddChild k t).2.clear = .mk false t.value (addR k (PN.clearAll (kids t))) := by
  obtain ⟨a, v, cs⟩ := t
  have key : ∀ cs : List (Str × PN), PN.clearAll (match PN.findIdx k cs with
      | none => cs ++ [(k, PN.nil)]
      | some i => PN.modifyAt PN.access i cs) = addR k (PN.clearAll cs) := by
    intro cs
    induction cs with
    | nil => rfl
    | cons kn cs ih =>
      obtain ⟨k', n⟩ := kn
      by_cases hk : k' = k
      · simp [PN.findIdx, hk, PN.modifyAt, PN.clearAll, addR, PN.clear_access]
      · simp only [PN.findIdx, if_neg hk, PN.clearAll, addR]
        rw [← ih]
        cases PN.findIdx k cs <;> simp [PN.modifyAt, PN.clearAll]
  have := key cs
  simp only [PN.getOrAddChild]
  cases h : PN.findIdx k cs with
  | none => rw [h] at this; simpa [PN.pushBack, PN.clear, PN.value, kids] using this
  | some i => rw [h] at this; simpa [PN.clear, PN.value, kids] using this

/-- The same for trees with vectors. -/
theorem contentAll_getOrAdd (k : Str) (t : VN) : (getOrAdd k t).value = t.value ∧
    contentAll (getOrAdd k t).children = addR k (contentAll t.children) := by
  have h := content_getOrAdd k t
  rw [clear_add, content_of] at h
  obtain ⟨a, v, c, cs⟩ := t
  injection h with _ h1 h2
  exact ⟨h1, h2⟩

theorem content_set' (k : Str) (n t : VN) : content (set k n t) = .mk false t.value (setR k (content n) (contentAll t.children)) := by
  rw [content_set, clear_set]
  obtain ⟨a, v, c, cs⟩ := t
  rfl

theorem findIdx_content {k : Str} {cs : List (Str × VN)} {x : PN} (h : firstChild k (contentAll cs) = some x) :
    ∃ i n, findIdx k cs = some i ∧ cs[i]? = some (k, n) ∧ content n = x := by
  induction cs with
  | nil => cases h
  | cons kn cs ih =>
    obtain ⟨k', n⟩ := kn
    rw [contentAll_cons] at h
    by_cases hk : k' = k
    · subst hk
      simp only [firstChild, if_true, Option.some.injEq] at h
      exact ⟨0, n, by simp [findIdx], rfl, h⟩
    · simp only [firstChild, if_neg hk] at h
      obtain ⟨i, m, h1, h2, h3⟩ := ih h
      exact ⟨i + 1, m, by simp [findIdx, hk, h1], h2, h3⟩

theorem findIdx_mem {k : Str} {cs : List (Str × VN)} (h : k ∈ (contentAll cs).map Prod.fst) : ∃ i n, findIdx k cs = some i ∧ cs[i]? = some (k, n) := by
  have : ∃ x, firstChild k (contentAll cs) = some x := by
    cases hf : firstChild k (contentAll cs) with
    | some x => exact ⟨x, rfl⟩
    | none => exact absurd h (PN.firstChild_none.1 hf)
  obtain ⟨x, hx⟩ := this
  obtain ⟨i, n, h1, h2, -⟩ := findIdx_content hx
  exact ⟨i, n, h1, h2⟩

theorem keys_content (cs : List (Str × VN)) : (contentAll cs).map Prod.fst = cs.map Prod.fst := by simp [contentAll_eq, Function.comp_def]

theorem findIdx_absent {k : Str} {cs : List (Str × VN)} (h : k ∉ cs.map Prod.fst) : findIdx k cs = none := by
  induction cs with
  | nil => rfl
  | cons kn cs ih =>
    obtain ⟨k', n⟩ := kn
    simp only [List.map_cons, List.mem_cons, not_or] at h
    simp [findIdx, Ne.symm h.1, ih h.2]

/-- The last step of `n[ key ] = n[ source ]`. -/
theorem assignEntry_last {key source : Str} {a v c cs} {x : PN} (hs : firstChild source (contentAll cs) = some x)
    (hk : key ∈ (contentAll cs).map Prod.fst) :
    ∃ t', (let i := entryIdx source (mk a v c cs)
      let j := entryIdx key (mk a v c cs)
      if i = j then Res.ok (mk a v c cs)
      else match cs[i]? with
        | none => .ub
        | some (_, n) => .ok (mk a v c (modifyAt (assign · n) j cs))) = .ok t' ∧ content t' = .mk false v (setR key x (contentAll cs)) := by
  obtain ⟨i, n, h1, h2, h3⟩ := findIdx_content hs
  obtain ⟨j, m, h4, h5⟩ := findIdx_mem hk
  have e1 : entryIdx source (mk a v c cs) = i := by simp [entryIdx, children, h1]
  have e2 : entryIdx key (mk a v c cs) = j := by simp [entryIdx, children, h4]
  simp only [e1, e2]
  by_cases hij : i = j
  · subst hij
    rw [h2] at h5
    injection h5 with h5
    injection h5 with h5 h6
    subst h5
    rw [if_pos rfl]
    refine ⟨_, rfl, ?_⟩
    rw [setR_same hs]; rfl
  · rw [if_neg hij, h2]
    refine ⟨_, rfl, ?_⟩
    have := content_set' key n (mk true v c cs)
    simp only [set, h4] at this
    rw [h3] at this
    exact this

end VN

end Flut
