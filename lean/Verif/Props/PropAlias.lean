import Verif.Proofs.PropAlias

/-! # Property theorems: nodes that are assigned or merged with a part of themselves (C135) -/

namespace Flut

open Spec VN

theorem kid_exists {t n : VN} {i : Nat} (h : at? [i] t = some n) : ∃ k, t.children[i]? = some (k, n) := by
  obtain ⟨a, v, c, cs⟩ := t
  simp only [at?] at h
  change ∃ k, cs[i]? = some (k, n)
  cases hc : cs[i]? with
  | none => rw [hc] at h; cases h
  | some kn => rw [hc] at h; injection h with h; exact ⟨kn.1, by rw [← h]⟩

theorem count_children (t : VN) : count t = t.children.length := by cases t; rfl
theorem room_cap (t : VN) : room t = t.cap := by cases t; rfl

/-- C135. `n = n[ i ]` gives the content of the child if its children do not fit into the block of the node, or if there are not more of them than
children before it. -/
theorem C135_assign (i : Nat) (t n : VN) (h : at? [i] t = some n) (hc : room t < count n ∨ count n ≤ i) :
    ∃ t', assignOwn i t = .ok t' ∧ SameTree t'.toPN n.toPN := by
  obtain ⟨k, hk⟩ := kid_exists h
  rw [room_cap, count_children] at hc
  rw [assignOwn_step hk]
  split
  · refine ⟨_, rfl, (PN.sameTree_iff _ _).2 ?_⟩
    change content _ = content n
    rw [content_mk, contentAll_copy, ← content_of]
  · rw [List.getElem?_eq_none (by omega)]
    refine ⟨_, rfl, (PN.sameTree_iff _ _).2 ?_⟩
    change content _ = content n
    rw [content_mk, contentAll_assign, ← content_of]

/-- C135. It is undefined if the children fit, there are at least two more of them than children before the child, and the child is not the last one. -/
theorem C135_assign_ub (i : Nat) (t n : VN) (h : at? [i] t = some n) (h1 : i + 1 < count t) (h2 : i + 1 < count n) (h3 : count n ≤ room t) :
    assignOwn i t = .ub := by
  obtain ⟨k, hk⟩ := kid_exists h
  rw [room_cap] at h3
  rw [count_children] at h1 h2 h3
  exact assignOwn_ub _ i t k n (Nat.le_refl _) hk h1 h2 h3

/-- C135. In a tree that is a copy, so that no vector has spare room, one of the two is the case: the assignment is right, unless the child has at least two
more children than there are children before it, but not more than the node; then it is undefined. -/
theorem C135_copied (i : Nat) (s n : VN) (h : at? [i] s = some n) :
    (count s < count n ∨ count n ≤ i + 1 → ∃ t', assignOwn i s.copy = .ok t' ∧ SameTree t'.toPN n.toPN) ∧
    (count n ≤ count s ∧ i + 1 < count n → assignOwn i s.copy = .ub) := by
  obtain ⟨k, hk⟩ := kid_exists h
  have hc : s.copy.children[i]? = some (k, n.copy) := by
    rw [children_copy, copyAll_eq, List.getElem?_map, hk]; rfl
  rw [count_children, count_children]
  refine ⟨fun hh => ?_, fun hh => ?_⟩
  · by_cases hl : n.children.length ≤ i + 1
    · obtain ⟨t', h1, h2⟩ := assignOwn_last _ i s.copy k n (Nat.le_refl _) hc hl
      exact ⟨t', h1, (PN.sameTree_iff _ _).2 h2⟩
    · rw [assignOwn_step hc, if_pos (by rw [cap_copy, children_copy, copyAll_length]; omega)]
      refine ⟨_, rfl, (PN.sameTree_iff _ _).2 ?_⟩
      change content _ = content n
      rw [content_mk, contentAll_copy, ← content_of, content_copy]
  · exact assignOwn_ub _ i s.copy k n.copy (Nat.le_refl _) hc (by rw [children_copy, copyAll_length]; omega)
      (by rw [children_copy, copyAll_length]; omega) (by rw [children_copy, copyAll_length, cap_copy]; omega)

/-- C135. `n = std::move( n[ i ] )` is always right. -/
theorem C135_move (i : Nat) (t n : VN) (h : at? [i] t = some n) : ∃ t', moveOwn i t = .ok t' ∧ SameTree t'.toPN n.toPN := by
  obtain ⟨k, hk⟩ := kid_exists h
  obtain ⟨a, v, c, cs⟩ := t
  obtain ⟨b, w, d, ds⟩ := n
  change cs[i]? = _ at hk
  simp only [moveOwn, hk]
  exact ⟨_, rfl, (PN.sameTree_iff _ _).2 rfl⟩

/-- C135. Merging a node with one of its children gives what merging with a copy of the child gives, if the node has room for all but one of the new children. -/
theorem C135_merge (i : Nat) (t n : VN) (h : at? [i] t = some n) (hr : count t + count n ≤ room t + 1) :
    ∃ t', mergeOwn i t = .ok t' ∧ SameTree t'.toPN (PN.merge false n.toPN t.toPN) := by
  obtain ⟨k, hk⟩ := kid_exists h
  obtain ⟨a, v, c, cs⟩ := t
  change cs[i]? = _ at hk
  rw [count_children n] at hr
  simp only [mergeOwn, hk]
  rw [mergeOwnLoop_eq n.children a v c cs hr]
  refine ⟨_, rfl, (PN.sameTree_iff _ _).2 ?_⟩
  change content _ = _
  rw [content_mergeLoop]
  obtain ⟨b, w, d, ds⟩ := n
  rfl

/-- C135. `n[ key ] = n[ source ]` sets the child `key` to the content of the existing child `source`, if the left reference is taken first, if the child
`key` exists, or if there is room for it; otherwise it is undefined. -/
theorem C135_entry (rightFirst : Bool) (key source : Str) (t : VN) (n : PN) (hs : firstChild source (kids t.toPN) = some n) :
    (rightFirst = false ∨ key ∈ keysOf t ∨ count t < room t →
      ∃ t', assignEntry rightFirst key source t = .ok t' ∧ SameTree t'.toPN (PN.set key n t.toPN)) ∧
    (rightFirst = true ∧ key ∉ keysOf t ∧ room t ≤ count t → assignEntry rightFirst key source t = .ub) := by
  have hc : firstChild source (contentAll t.children) = some n.clear := by
    have := PN.sameTree_first ((PN.sameTree_iff t.toPN t.toPN.clear).2 (PN.clear_clear _).symm) source
    rw [hs] at this
    obtain ⟨a, v, c, cs⟩ := t
    have h2 : kids (mk a v c cs).toPN.clear = contentAll cs := rfl
    rw [h2] at this
    change firstChild source (contentAll cs) = _
    cases hf : firstChild source (contentAll cs) with
    | none => rw [hf] at this; cases this
    | some x =>
      rw [hf] at this
      simp only [Option.map_some, Option.some.injEq] at this
      rw [this]
      obtain ⟨i, m, -, -, h3⟩ := findIdx_content hf
      rw [← h3, content, PN.clear_clear]
  have hkeys : (contentAll t.children).map Prod.fst = keysOf t := by rw [keys_content]; cases t; rfl
  have goal : (∃ t', assignEntry rightFirst key source t = .ok t' ∧ content t' = .mk false t.value (setR key n.clear (contentAll t.children))) →
      ∃ t', assignEntry rightFirst key source t = .ok t' ∧ SameTree t'.toPN (PN.set key n t.toPN) := by
    rintro ⟨t', h1, h2⟩
    refine ⟨t', h1, (PN.sameTree_iff _ _).2 ?_⟩
    rw [clear_set]
    obtain ⟨a, v, c, cs⟩ := t
    exact h2
  refine ⟨fun h => goal ?_, fun h => ?_⟩
  · cases rightFirst with
    | false =>
      obtain ⟨v1, c1⟩ := contentAll_getOrAdd key t
      obtain ⟨v2, c2⟩ := contentAll_getOrAdd source (getOrAdd key t)
      have hs1 : firstChild source (contentAll (getOrAdd key t).children) = some n.clear := by rw [c1]; exact addR_first hc
      obtain ⟨i, m, hi, -⟩ := findIdx_content hs1
      rw [addR_present (first_mem hs1)] at c2
      simp only [assignEntry, newBlock, hi, Option.isNone_some, Bool.false_and, Bool.false_eq_true, if_false]
      cases ht : getOrAdd source (getOrAdd key t) with
      | mk a v c cs =>
        rw [ht] at c2 v2
        change contentAll cs = _ at c2
        have hs2 : firstChild source (contentAll cs) = some n.clear := by rw [c2]; exact hs1
        obtain ⟨t', h1, h2⟩ := assignEntry_last (key := key) (a := a) (v := v) (c := c) hs2 (by rw [c2, c1]; exact addR_self _ _)
        refine ⟨t', h1, ?_⟩
        rw [h2, c2, c1, setR_addR, ← v1, ← v2]; rfl
    | true =>
      obtain ⟨v1, c1⟩ := contentAll_getOrAdd source t
      obtain ⟨v2, c2⟩ := contentAll_getOrAdd key (getOrAdd source t)
      rw [addR_present (first_mem hc)] at c1
      have hb : newBlock key (getOrAdd source t) = false := by
        by_cases hk : key ∈ keysOf t
        · obtain ⟨i, m, hi, -⟩ := findIdx_mem (cs := (getOrAdd source t).children) (k := key) (by rw [c1, hkeys]; exact hk)
          simp [newBlock, hi]
        · have hr : count t < room t := (h.resolve_left (by simp)).resolve_left hk
          obtain ⟨a, v, c, cs⟩ := t
          obtain ⟨i, m, hi, -⟩ := findIdx_content hc
          have hr : cs.length < c := hr
          have e : getOrAdd source (mk a v c cs) = mk true v c (modifyAt VN.access i cs) := by
            simp only [getOrAdd]
            rw [show VN.findIdx source cs = some i from hi]
          rw [e]
          simp [newBlock, children, cap, length_modifyAt, hr]
      simp only [assignEntry, if_true, hb, Bool.false_eq_true, if_false]
      cases ht : getOrAdd key (getOrAdd source t) with
      | mk a v c cs =>
        rw [ht] at c2 v2
        change contentAll cs = _ at c2
        have hs2 : firstChild source (contentAll cs) = some n.clear := by rw [c2, c1]; exact addR_first hc
        obtain ⟨t', h1, h2⟩ := assignEntry_last (key := key) (a := a) (v := v) (c := c) hs2 (by rw [c2]; exact addR_self _ _)
        refine ⟨t', h1, ?_⟩
        rw [h2, c2, c1, setR_addR, ← v1, ← v2]; rfl
  · obtain ⟨h1, h2, h3⟩ := h
    subst h1
    obtain ⟨v1, c1⟩ := contentAll_getOrAdd source t
    rw [addR_present (first_mem hc)] at c1
    have hb : newBlock key (getOrAdd source t) = true := by
      have hf : VN.findIdx key (getOrAdd source t).children = none := by
        apply findIdx_absent
        rw [← keys_content, c1, hkeys]; exact h2
      simp only [newBlock, hf, Option.isNone_none, Bool.true_and, decide_eq_true_eq]
      obtain ⟨a, v, c, cs⟩ := t
      obtain ⟨i, m, hi, -⟩ := findIdx_content hc
      have h3 : c ≤ cs.length := h3
      simp only [getOrAdd]
      rw [show VN.findIdx source cs = some i from hi]
      simp only [children, cap, length_modifyAt]
      exact h3
    simp only [assignEntry, if_true, hb]

/-- C135. So `n[ "b" ] = n[ "a" ]` is undefined for a node with the one child `a`, if the right side is evaluated first. -/
theorem C135_entry_refuted : ∃ t : VN, keysOf t = [b!"a"] ∧ assignEntry true b!"b" b!"a" t = .ub ∧
    ∃ t', assignEntry false b!"b" b!"a" t = .ok t' ∧ keysOf t' = [b!"a", b!"b"] :=
  ⟨setValue b!"a" (VN.leaf b!"1") VN.nil, rfl, rfl, _, rfl, rfl⟩

/-- A node with two children, of which the first one has two children. -/
def twoByTwo : VN :=
  pushBack b!"b" VN.nil (pushBack b!"a" (setValue b!"y" (VN.leaf b!"2") (setValue b!"x" (VN.leaf b!"1") VN.nil)) VN.nil)

/-- C135. So an assignment of a node by its own child can be undefined, ... -/
theorem C135_assign_refuted : ∃ (t : VN), keysOf t = [b!"a", b!"b"] ∧ (∃ n, at? [0] t = some n ∧ keysOf n = [b!"x", b!"y"]) ∧
    assignOwn 0 t = .ub :=
  ⟨twoByTwo, rfl, ⟨_, rfl, rfl⟩, C135_assign_ub 0 twoByTwo _ rfl (by decide) (by decide) (by decide)⟩

/-- A node with room for four children that has one, which has two, the first of which has three. -/
def spareRoom : VN := .mk false [] 4 [(b!"a", .mk false [] 2 [
  (b!"x", .mk false [] 4 [(b!"p", VN.leaf b!"1"), (b!"q", VN.leaf b!"2"), (b!"r", VN.leaf b!"3")]), (b!"y", VN.leaf b!"4")])]

/-- C135. ... and if it is not, the result can be another tree: the key `y` becomes `q`. -/
theorem C135_wrong_refuted : ∃ (t n t' : VN), at? [0] t = some n ∧ keysOf n = [b!"x", b!"y"] ∧ assignOwn 0 t = .ok t' ∧ keysOf t' = [b!"x", b!"q"] := by
  have h1 := assignOwn_step (i := 0) (t := spareRoom) rfl
  have h2 := assignOwn_step (i := 0) (t := .mk false [] 2 [(b!"x", .mk false [] 4 [(b!"p", VN.leaf b!"1"), (b!"q", VN.leaf b!"2"), (b!"r", VN.leaf b!"3")]),
    (b!"y", VN.leaf b!"4")]) rfl
  rw [if_pos (by decide)] at h2
  rw [if_neg (by decide)] at h1
  simp only [VN.children, List.getElem?_cons_zero, h2, Res.bind_ok] at h1
  exact ⟨spareRoom, _, _, rfl, rfl, h1, rfl⟩

/-- C135. Merging a node with its own child is undefined when the node has to grow for other children than the last one. -/
theorem C135_merge_refuted : ∃ (t : VN), keysOf t = [b!"a", b!"b"] ∧ (∃ n, at? [0] t = some n ∧ keysOf n = [b!"x", b!"y"]) ∧
    mergeOwn 0 t = .ub := ⟨twoByTwo, rfl, ⟨_, rfl, rfl⟩, rfl⟩

/-- The hypotheses of the positive statements hold as well: an only child with two children, and the second of two with one child. -/
example : (∃ n, at? [0] (pushBack b!"a" (setValue b!"y" (VN.leaf b!"2") (setValue b!"x" (VN.leaf b!"1") VN.nil)) VN.nil) = some n ∧
    room (pushBack b!"a" (setValue b!"y" (VN.leaf b!"2") (setValue b!"x" (VN.leaf b!"1") VN.nil)) VN.nil) < count n) ∧
    ∃ n, at? [1] (pushBack b!"b" (setValue b!"x" (VN.leaf b!"1") VN.nil) (pushBack b!"a" VN.nil VN.nil)) = some n ∧ count n = 1 :=
  ⟨⟨_, rfl, by decide⟩, ⟨_, rfl, by decide⟩⟩
example : count (reserve 8 twoByTwo) + 2 ≤ room (reserve 8 twoByTwo) + 1 := by decide

end Flut
