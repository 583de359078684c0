import Verif.Proofs.PropRefs

/-!
# C149: references to nodes of a property tree
-/

namespace Flut

open PropRefs in
/-- Any program with a tree: its references refer to the nodes that the specification says, it reads the same values, it throws the same exceptions, and it is
undefined exactly when the specification says that a reference is used that is lost. -/
theorem C149_refs (as : List (Nat × NodeAct)) :
    Agree (fun x y => x.1.tree.toVN = y.1.tree ∧ x.2 = y.2 ∧ ∀ r : Nat, (x.1.ptrs[r]?.map fun q => q.path x.1.tree) = y.1.refs[r]?)
      (run as start) (PathRefs.run as PathRefs.start) := by
  have h := run_is as start_is
  cases h1 : run as start <;> cases h2 : PathRefs.run as PathRefs.start <;> rw [h1, h2] at h <;> try exact h
  refine ⟨h.1.tree, h.2, ?_⟩
  intro r
  rw [h.1.refs, List.getElem?_map]

/-- Two children and their children, with room for the second one: the first reference is still good, and what is written through it is read through the root. -/
example : (PathRefs.run [(0, .reserve 2), (0, .pushBack b!"a"), (1, .pushBack b!"x"), (0, .pushBack b!"b"), (2, .setValue b!"v"),
      (1, .getChild b!"x"), (4, .read)] PathRefs.start >>= fun x => .ok x.2) = .ok [b!"v"] := by decide +kernel

open PropRefs in
/-- A call through one reference leaves another reference alone, unless it refers to a node below the one that is called: it refers to the node at the same
place, and to the very same node unless the node that is called is in it. -/
theorem C149_elsewhere (as : List (Nat × NodeAct)) (s s' : PropRefs) (os : List Str) (o : Option Str) (r r' : Nat) (a : NodeAct)
    (p q : List Nat) (x y : BN) (h : run as start = .ok (s, os)) (hr : s.deref r = .ok (q, x)) (hr' : s.deref r' = .ok (p, y))
    (hpq : p <+: q → p = q) (hs : step r' a s = .ok (s', o)) :
    ∃ x', s'.deref r = .ok (q, x') ∧ (¬ q <+: p → x' = x) := by
  obtain ⟨σ, hσ⟩ := reached h
  obtain ⟨ov, ch, σ', z, h1, h2, h3, h4, -, -⟩ := step_refs hσ hr' hs
  obtain ⟨e1, e2⟩ := deref_ref hσ hr
  have hk : kept (BN.lostBelow p ch.lost) (some q) = some q := by
    cases ch.lost with
    | none => rfl
    | some l =>
      simp only [BN.lostBelow, kept, PathRefs.keep]
      rw [if_neg]
      rintro ⟨h5, h6⟩
      have hp : p <+: q := (List.prefix_append p l).trans h5
      have := hpq hp
      subst this
      have : l = [] := by
        have := h5.length_le
        simp at this
        exact List.length_eq_zero_iff.1 (by omega)
      subst this
      simp at h6
  have hlt : r < σ.refs.length := by
    rcases Nat.lt_or_ge r σ.refs.length with h | h
    · exact h
    · rw [List.getElem?_eq_none h] at e1; cases e1
  have h5 : σ'.refs[r]? = some (some q) := by
    rw [h3, List.getElem?_append_left (by simpa using hlt), List.getElem?_map, e1]
    exact congrArg some hk
  obtain ⟨x', h6, h7⟩ := ref_deref h2 h5
  refine ⟨x', h6, ?_⟩
  intro hq
  rw [h4, BN.nodeAt_other z s.tree (fun h => hq (hpq h ▸ List.prefix_refl _)) hq, e2] at h7
  exact (Option.some.inj h7).symm

/-- A child of the second child: the references to the first child and to its child are good, although there was no room in the second. -/
example : (PropRefs.run [(0, .reserve 2), (0, .pushBack b!"a"), (1, .pushBack b!"x"), (0, .pushBack b!"b"), (3, .pushBack b!"y"), (3, .pushBack b!"z"),
      (2, .setValue b!"v"), (2, .read)] PropRefs.start >>= fun x => .ok x.2) = .ok [b!"v"] := by decide +kernel

open PropRefs in
/-- While a node has room for another child, adding one keeps all references, also those to nodes below it. -/
theorem C149_room (as : List (Nat × NodeAct)) (s s' : PropRefs) (os : List Str) (o : Option Str) (r r' : Nat) (a : NodeAct)
    (p q : List Nat) (x y : BN) (h : run as start = .ok (s, os)) (hr : s.deref r = .ok (q, x)) (hr' : s.deref r' = .ok (p, y))
    (ha : a.Keeps y) (hs : step r' a s = .ok (s', o)) : ∃ x', s'.deref r = .ok (q, x') := by
  obtain ⟨σ, hσ⟩ := reached h
  obtain ⟨ov, ch, σ', z, h1, h2, h3, h4, -, -⟩ := step_refs hσ hr' hs
  obtain ⟨e1, e2⟩ := deref_ref hσ hr
  rw [(change_keeps h1).1 ha] at h3
  have hlt : r < σ.refs.length := by
    rcases Nat.lt_or_ge r σ.refs.length with h | h
    · exact h
    · rw [List.getElem?_eq_none h] at e1; cases e1
  have h5 : σ'.refs[r]? = some (some q) := by
    rw [h3, List.getElem?_append_left (by simpa using hlt), List.getElem?_map, e1]
    rfl
  obtain ⟨x', h6, -⟩ := ref_deref h2 h5
  exact ⟨x', h6⟩

/-- With room for two children, a reference to the first one and one to its child are good after the second was added. -/
example : (PropRefs.run [(0, .reserve 2), (0, .pushBack b!"a"), (1, .pushBack b!"x"), (0, .getOrAdd b!"b"), (2, .setValue b!"v"), (1, .read), (2, .read)]
      PropRefs.start >>= fun x => .ok x.2) = .ok [b!"", b!"v"] := by decide +kernel

open PropRefs in
/-- When a node without room gets another child, or more room, or is cleared, no reference to a node below it can be used again. -/
theorem C149_lost (as : List (Nat × NodeAct)) (s s' : PropRefs) (os : List Str) (o : Option Str) (r r' : Nat) (a : NodeAct)
    (p q : List Nat) (x y : BN) (h : run as start = .ok (s, os)) (hr : s.deref r = .ok (q, x)) (hr' : s.deref r' = .ok (p, y))
    (ha : a.Loses y) (hpq : p <+: q ∧ p ≠ q) (hs : step r' a s = .ok (s', o)) (as' : List (Nat × NodeAct)) (s'' : PropRefs) (os' : List Str)
    (hrun : run as' s' = .ok (s'', os')) : s''.deref r = .ub := by
  obtain ⟨σ, hσ⟩ := reached h
  obtain ⟨ov, ch, σ', z, h1, h2, h3, h4, -, -⟩ := step_refs hσ hr' hs
  obtain ⟨e1, e2⟩ := deref_ref hσ hr
  rw [(change_keeps h1).2 ha] at h3
  have hlt : r < σ.refs.length := by
    rcases Nat.lt_or_ge r σ.refs.length with h | h
    · exact h
    · rw [List.getElem?_eq_none h] at e1; cases e1
  have h5 : σ'.refs[r]? = some none := by
    rw [h3, List.getElem?_append_left (by simpa using hlt), List.getElem?_map, e1]
    simp only [Option.map_some, BN.lostBelow, kept, PathRefs.keep, List.append_nil, if_pos hpq]
  exact run_lost h2 h5 hrun

/-- Three children with room for two: and the third loses the reference to the first. -/
example : (PropRefs.run [(0, .reserve 2), (0, .pushBack b!"a"), (0, .pushBack b!"b"), (1, .read), (0, .pushBack b!"c")]
      PropRefs.start >>= fun x => .ok x.2) = .ok [b!""] ∧
    PropRefs.run [(0, .reserve 2), (0, .pushBack b!"a"), (0, .pushBack b!"b"), (1, .read), (0, .pushBack b!"c"), (1, .read)] PropRefs.start = .ub := by
  refine ⟨by decide +kernel, ?_⟩
  rfl

open PropRefs in
/-- Room can be made in advance: if there is room for some more children, they can all be added, all references are good afterwards, and those that were returned
refer to the new children in their order. -/
theorem C149_reserve (as : List (Nat × NodeAct)) (s : PropRefs) (os : List Str) (r : Nat) (p : List Nat) (y : BN) (keys : List Str)
    (h : run as start = .ok (s, os)) (hr : s.deref r = .ok (p, y)) (hroom : y.children.length + keys.length ≤ y.cap) :
    ∃ s', run (keys.map fun k => (r, NodeAct.pushBack k)) s = .ok (s', []) ∧
      (∀ r' q x, s.deref r' = .ok (q, x) → ∃ x', s'.deref r' = .ok (q, x')) ∧
      ∀ j, j < keys.length → ∃ x, s'.deref (s.ptrs.length + j) = .ok (p ++ [y.children.length + j], x) := by
  obtain ⟨σ, hσ⟩ := reached h
  obtain ⟨s', σ', h1, h2, h3⟩ := pushes_room keys hσ hr hroom
  refine ⟨s', h1, ?_, ?_⟩
  · intro r' q x hx
    obtain ⟨e1, -⟩ := deref_ref hσ hx
    have hlt : r' < σ.refs.length := by
      rcases Nat.lt_or_ge r' σ.refs.length with h | h
      · exact h
      · rw [List.getElem?_eq_none h] at e1; cases e1
    obtain ⟨x', h6, -⟩ := ref_deref h2 (by rw [h3, List.getElem?_append_left hlt]; exact e1)
    exact ⟨x', h6⟩
  · intro j hj
    have hl : σ.refs.length = s.ptrs.length := by rw [hσ.refs, List.length_map]
    have e : σ'.refs[s.ptrs.length + j]? = some (some (p ++ [y.children.length + j])) := by
      rw [h3, List.getElem?_append_right (by omega), List.getElem?_map, List.getElem?_range' (by omega)]
      simp only [Option.map_some]
      congr 4
      omega
    obtain ⟨x, h6, -⟩ := ref_deref h2 e
    exact ⟨x, h6⟩

/-- After `reserve( 3 )` three children can be added. -/
example : (PropRefs.run [(0, .reserve 3), (0, .pushBack b!"a"), (0, .pushBack b!"b"), (0, .pushBack b!"c"), (1, .setValue b!"v"), (3, .setValue b!"w"),
      (0, .getChild b!"a"), (4, .read), (3, .read)] PropRefs.start >>= fun x => .ok x.2) = .ok [b!"v", b!"w"] := by decide +kernel

/-- The reference that `push_back` returns is not good for long: after `auto& a = root.push_back( "a" ); auto& b = root.push_back( "b" );` the first one must not
be used. -/
theorem C149_push_refuted : PropRefs.run [(0, .pushBack b!"a"), (0, .pushBack b!"b"), (1, .read)] PropRefs.start = .ub := rfl

/-- Nor is one that `operator[]` returns, if the key of a later call is new. -/
theorem C149_index_refuted : PropRefs.run [(0, .getOrAdd b!"a"), (0, .getOrAdd b!"b"), (1, .setValue b!"v")] PropRefs.start = .ub := rfl

/-- `set` of a key that exists loses the references to nodes below that child, but not the one to the child. -/
theorem C149_set_refuted :
    PropRefs.run [(0, .pushBack b!"a"), (1, .pushBack b!"b"), (0, .set b!"a" b!"v"), (2, .read)] PropRefs.start = .ub ∧
    ∃ s, PropRefs.run [(0, .pushBack b!"a"), (1, .pushBack b!"b"), (0, .set b!"a" b!"v"), (1, .read)] PropRefs.start = .ok (s, [b!"v"]) :=
  ⟨rfl, _, rfl⟩

end Flut
