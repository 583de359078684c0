import Verif.Proofs.PropList

/-! # C89, C90: listings of a tree and of what was not accessed -/

namespace Flut

open Spec PN

/-! ## C89 -/

/-- A tree written to a stream, read line by line, has for each node below the root, in order, its depth, its key and its value
(no value is shown for a node with children and without a value). Listing changes no content. -/
theorem C89_listing (n : PN) (h : ∀ x ∈ preorder 0 n, PlainKey x.2.1 ∧ (10 : Byte) ∉ valueOf x.2.2) :
    readListing n.listing = ((preorder 0 n).map fun x => (x.1, x.2.1, shownValue x.2.2)) ∧ SameTree n.afterStream n := by
  refine ⟨?_, (sameTree_iff _ _).2 (clear_afterStream n)⟩
  rw [listing_eq n (fun x hx => (h x hx).1)]
  have : ((preorder 0 n).map fun x => listLine (alignWidth 0 n) x ++ [10])
      = ((preorder 0 n).map (listLine (alignWidth 0 n))).map (· ++ [10]) := by rw [List.map_map]; rfl
  rw [this, readListing_lines, List.map_map]
  · refine List.map_congr_left fun x hx => ?_
    exact readLine_listLine _ x (h x hx).1
  · intro l hl
    obtain ⟨x, hx, rfl⟩ := List.mem_map.1 hl
    exact listLine_no_newline _ x (h x hx).1 (h x hx).2

/-- So the listing determines the tree, except for the value of the root. -/
theorem C89_determines (m n : PN) (hm : ∀ x ∈ preorder 0 m, PlainKey x.2.1 ∧ (10 : Byte) ∉ valueOf x.2.2)
    (hn : ∀ x ∈ preorder 0 n, PlainKey x.2.1 ∧ (10 : Byte) ∉ valueOf x.2.2) (hv : valueOf m = valueOf n) :
    m.listing = n.listing ↔ SameTree m n := by
  constructor
  · intro h
    have h1 := (C89_listing m hm).1
    have h2 := (C89_listing n hn).1
    rw [h, h2] at h1
    obtain ⟨a, v, cs⟩ := m
    obtain ⟨a', v', cs'⟩ := n
    simp only [valueOf] at hv
    subst hv
    have := outline_inj _ 0 cs cs' [] [] (Nat.le_refl _) (by simp) (by simp) (by
      rw [List.append_nil, List.append_nil]; exact h1.symm)
    rw [sameTree_iff]
    simp [clear, this.1]
  · intro h
    have key : ∀ t : PN, t.listing = t.clear.listing := fun t => (toStream_clear 0 0 t).symm
    rw [key m, key n, (sameTree_iff _ _).1 h]

/-- A tree for the examples. -/
def listingExample : PN := .mk false [] [(b!"a", .leaf b!"1 2"), (b!"long", .mk false [] [(b!"b", .leaf []), (b!"c", .mk true b!"x" [
  (b!"d", .leaf b!" = ")])])]

example : listingExample.listing = b!"a     = 1 2\nlong \n  b   = \n  c   = x\n    d =  = \n" := by decide +kernel

example : ∀ x ∈ preorder 0 listingExample, PlainKey x.2.1 ∧ (10 : Byte) ∉ valueOf x.2.2 := by
  simp [listingExample, preorder, preorderAll, PlainKey, valueOf, PN.leaf]

/-- The value of the root is not listed. -/
theorem C89_root_refuted : (PN.leaf b!"x").listing = PN.nil.listing ∧ ¬ SameTree (PN.leaf b!"x") PN.nil :=
  ⟨by decide, fun h => by have := (sameTree_iff _ _).1 h; simp [PN.leaf, PN.nil, clear] at this⟩

/-! ## C90 -/

/-- `log_unaccessed` sends one message for each node below the root that was not accessed or has a descendant that was not, in
order, indented by depth; the node's own lack of access is marked with a star, after its value. -/
theorem C90_messages (d : Nat) (n : PN) :
    (logUnaccessed d n).1 = ((preorder d n).filter fun x => false ∈ flags x.2.2).map fun x =>
      List.replicate (x.1 * 2) 32 ++ x.2.1 ++
        (if flagOf x.2.2 then [] else (if valueOf x.2.2 = [] then [] else b!" = " ++ valueOf x.2.2) ++ b!" *") := by
  rw [logUnaccessed_fst]
  induction preorder d n with
  | nil => rfl
  | cons x xs ih =>
    rw [List.flatMap_cons, ih]
    unfold unaccessedLine
    obtain ⟨dx, k, a, v, cs⟩ := x
    by_cases h : false ∈ flags (.mk a v cs)
    · rw [if_pos ((countUnaccessed_pos _).2 h), List.filter_cons_of_pos (by simpa using h)]
      cases a <;> cases v <;> simp [PN.acc, PN.value, hasValue, flagOf, valueOf]
    · rw [if_neg (fun hh => h ((countUnaccessed_pos _).1 hh)), List.filter_cons_of_neg (by simpa using h)]
      rfl

/-- So it is silent exactly if all nodes below the root were accessed. -/
theorem C90_silent (d : Nat) (n : PN) : (logUnaccessed d n).1 = [] ↔ ∀ x ∈ preorder d n, flagOf x.2.2 = true := by
  rw [C90_messages, List.map_eq_nil_iff, List.filter_eq_nil_iff]
  simp only [decide_eq_true_eq]
  constructor
  · intro h x hx
    have := h x hx
    obtain ⟨_, _, a, v, cs⟩ := x
    cases a
    · exact absurd (by simp [flags]) this
    · rfl
  · intro h x hx hf
    exact absurd hf (preorder_all_accessed d n h x hx)

/-- Content does not change. But the search for nodes that were not accessed counts as access: afterwards every node has been
accessed, and a second search finds nothing. -/
theorem C90_afterwards (d d' : Nat) (n : PN) : SameTree (logUnaccessed d n).2 n ∧
    (logUnaccessed d n).2.countUnaccessed = 0 ∧ (logUnaccessed d' (logUnaccessed d n).2).1 = [] := by
  rw [logUnaccessed_snd]
  refine ⟨(sameTree_iff _ _).2 (clear_afterStream n), ?_, ?_⟩
  · by_contra h
    have := (countUnaccessed_pos (afterStream n)).1 (by omega)
    cases flags_afterStream n false this
  · rw [C90_silent]
    intro x hx
    have := preorder_flags d' _ (flags_afterStream n) x hx
    obtain ⟨_, _, a, v, cs⟩ := x
    exact this a (by simp [flags])

/-- So reporting is not free of effects: the same call twice reports different things. -/
theorem C90_repeat_refuted : ∃ n : PN, (logUnaccessed 0 n).1 ≠ [] ∧
    (logUnaccessed 0 (logUnaccessed 0 n).2).1 ≠ (logUnaccessed 0 n).1 :=
  ⟨.mk false [] [(b!"a", .leaf b!"1")], by decide, by decide⟩

example : (logUnaccessed 0 listingExample).1 = [b!"a = 1 2 *", b!"long *", b!"  b *", b!"  c", b!"    d =  =  *"] := by
  decide +kernel

end Flut
