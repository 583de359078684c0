import Verif.Model.Tools
import Verif.Spec.Tools
import Mathlib.Tactic.Ring
import Mathlib.Tactic.NormNum

/-!
# C42: container statistics
-/

namespace Flut
open Tools

section
variable {K : Type} [LinearOrder K]

theorem sortedCopy_perm (v : List K) : (sortedCopy v).Perm v := List.perm_insertionSort _ _

theorem sortedCopy_sorted (v : List K) : (sortedCopy v).Pairwise (· ≤ ·) := List.pairwise_insertionSort _ _

/-- Entry `k` of the sorted list is the `k`-th smallest. -/
theorem isKth_of_sorted (v s : List K) (hp : s.Perm v) (hs : s.Pairwise (· ≤ ·)) (k : Nat) (hk : k < s.length) :
    IsKth v k s[k] := by
  have e : s = s.take k ++ s[k] :: s.drop (k + 1) := by
    rw [List.getElem_cons_drop]; exact (List.take_append_drop k s).symm
  refine ⟨hp.subset (List.getElem_mem _), ?_, ?_⟩
  · rw [← hp.countP_eq]
    have h2 : (s.drop k).countP (· < s[k]) = 0 := by
      rw [List.countP_eq_zero]
      intro a ha
      obtain ⟨i, hi, rfl⟩ := List.getElem_of_mem ha
      simp only [List.getElem_drop, decide_eq_true_eq, not_lt]
      rcases Nat.eq_zero_or_pos i with h0 | h0
      · simp [h0]
      · exact List.pairwise_iff_getElem.1 hs k (k + i) hk (by simp at hi; omega) (by omega)
    have h3 : s.countP (· < s[k]) = (s.take k).countP (· < s[k]) + (s.drop k).countP (· < s[k]) := by
      rw [← List.countP_append, List.take_append_drop]
    rw [h3, h2, Nat.add_zero]
    exact le_trans List.countP_le_length (by simp)
  · rw [← hp.countP_eq]
    have h2 : (s.take (k + 1)).countP (· ≤ s[k]) = k + 1 := by
      have : (s.take (k + 1)).countP (· ≤ s[k]) = (s.take (k + 1)).length := by
        rw [List.countP_eq_length]
        intro a ha
        obtain ⟨i, hi, rfl⟩ := List.getElem_of_mem ha
        simp only [List.getElem_take, decide_eq_true_eq]
        have hi' : i < k + 1 := by simp at hi; omega
        rcases Nat.lt_or_ge i k with h0 | h0
        · exact List.pairwise_iff_getElem.1 hs i k (by omega) hk h0
        · have : i = k := by omega
          subst this; exact le_rfl
      rw [this, List.length_take]; omega
    have h3 : s.countP (· ≤ s[k]) = (s.take (k + 1)).countP (· ≤ s[k]) + (s.drop (k + 1)).countP (· ≤ s[k]) := by
      rw [← List.countP_append, List.take_append_drop]
    omega

/-- The `k`-th smallest element is unique. -/
theorem isKth_unique (v : List K) (k : Nat) (x y : K) (hx : IsKth v k x) (hy : IsKth v k y) : x = y := by
  have key : ∀ {x y : K}, IsKth v k x → IsKth v k y → ¬ x < y := by
    intro x y hx hy hlt
    have h1 : v.countP (· ≤ x) ≤ v.countP (· < y) :=
      List.countP_mono_left (fun a _ ha => by
        simp only [decide_eq_true_eq] at ha ⊢
        exact lt_of_le_of_lt ha hlt)
    have := hx.2.2
    have := hy.2.1
    omega
  exact le_antisymm (not_lt.1 (key hy hx)) (not_lt.1 (key hx hy))

end

section
variable {K : Type} [Field K] [LinearOrder K]

/-- The median of an odd number of values is the middle one in order, of an even number the mean of the two middle ones;
of no values at all it throws. -/
theorem C42_median (vec : List K) :
    (vec = [] → median vec = .throws .assertion) ∧
    (∀ k, vec.length = 2 * k + 1 → ∃ x, IsKth vec k x ∧ median vec = .ok x) ∧
    (∀ k, vec.length = 2 * k + 2 → ∃ x y, IsKth vec k x ∧ IsKth vec (k + 1) y ∧ median vec = .ok ((x + y) / 2)) := by
  have hp := sortedCopy_perm vec
  have hs := sortedCopy_sorted vec
  have hl := hp.length_eq
  refine ⟨?_, ?_, ?_⟩
  · rintro rfl; rfl
  · intro k hk
    have hk' : k < (sortedCopy vec).length := by omega
    refine ⟨(sortedCopy vec)[k], isKth_of_sorted _ _ hp hs k hk', ?_⟩
    unfold median
    rw [if_pos (by omega), if_pos (by omega), show vec.length / 2 = k by omega]
    simp [index, hk']
  · intro k hk
    have hk' : k < (sortedCopy vec).length := by omega
    have hk2 : k + 1 < (sortedCopy vec).length := by omega
    refine ⟨(sortedCopy vec)[k], (sortedCopy vec)[k + 1], isKth_of_sorted _ _ hp hs k hk',
      isKth_of_sorted _ _ hp hs (k + 1) hk2, ?_⟩
    unfold median
    rw [if_pos (by omega), if_neg (by omega), show vec.length / 2 = k + 1 by omega]
    simp [index, hk', hk2, add_comm]

/-- The order of the values does not matter. -/
theorem C42_median_order (v w : List K) (h : v.Perm w) : median v = median w := by
  have hl := h.length_eq
  rcases Nat.lt_or_ge 0 v.length with hpos | hpos
  · rcases Nat.mod_two_eq_zero_or_one v.length with he | ho
    · obtain ⟨x, y, hx, hy, e⟩ := (C42_median v).2.2 (v.length / 2 - 1) (by omega)
      obtain ⟨x', y', hx', hy', e'⟩ := (C42_median w).2.2 (v.length / 2 - 1) (by omega)
      have tr : ∀ k z, IsKth v k z → IsKth w k z := fun k z hz =>
        ⟨h.subset hz.1, by rw [← h.countP_eq]; exact hz.2.1, by rw [← h.countP_eq]; exact hz.2.2⟩
      rw [e, e', isKth_unique w _ x x' (tr _ _ hx) hx', isKth_unique w _ y y' (tr _ _ hy) hy']
    · obtain ⟨x, hx, e⟩ := (C42_median v).2.1 (v.length / 2) (by omega)
      obtain ⟨x', hx', e'⟩ := (C42_median w).2.1 (v.length / 2) (by omega)
      have hx2 : IsKth w (v.length / 2) x :=
        ⟨h.subset hx.1, by rw [← h.countP_eq]; exact hx.2.1, by rw [← h.countP_eq]; exact hx.2.2⟩
      rw [e, e', isKth_unique w _ x x' hx2 hx']
  · have hv : v = [] := List.length_eq_zero_iff.1 (by omega)
    have hw : w = [] := List.length_eq_zero_iff.1 (by omega)
    rw [hv, hw]

/-- `median` is the middle of the data whatever the spread: it lies between the smallest and the largest value. -/
theorem C42_median_between [IsStrictOrderedRing K] (vec : List K) (lo hi m : K) (h : ∀ x ∈ vec, lo ≤ x ∧ x ≤ hi)
    (hm : median vec = .ok m) : lo ≤ m ∧ m ≤ hi := by
  rcases Nat.lt_or_ge 0 vec.length with hpos | hpos
  · rcases Nat.mod_two_eq_zero_or_one vec.length with he | ho
    · obtain ⟨x, y, hx, hy, e⟩ := (C42_median vec).2.2 (vec.length / 2 - 1) (by omega)
      rw [e] at hm; injection hm with hm; subst hm
      have hx := h x hx.1
      have hy := h y hy.1
      constructor
      · rw [le_div_iff₀ (by norm_num), mul_two]; exact add_le_add hx.1 hy.1
      · rw [div_le_iff₀ (by norm_num), mul_two]; exact add_le_add hx.2 hy.2
    · obtain ⟨x, hx, e⟩ := (C42_median vec).2.1 (vec.length / 2) (by omega)
      rw [e] at hm; injection hm with hm; subst hm
      exact h x hx.1
  · rw [(C42_median vec).1 (List.length_eq_zero_iff.1 (by omega))] at hm; cases hm

theorem foldl_add_eq (v : List K) (a : K) : v.foldl (· + ·) a = a + v.sum := by
  induction v generalizing a with
  | nil => simp
  | cons x v ih => rw [List.foldl_cons, ih, List.sum_cons, add_assoc]

/-- `average` is the mean. -/
theorem C42_average (v : List K) (h : v ≠ []) : average v = .ok (v.sum / v.length) := by
  unfold average
  rw [if_neg (by simpa using h), foldl_add_eq, zero_add]

/-- `top_average( vec, count )` is the mean of the `count` smallest elements. -/
theorem C42_top_average (vec : List K) (count : Nat) (h0 : 0 < count) (h : count ≤ vec.length) :
    ∃ small, Smallest vec count small ∧ topAverage vec count = .ok (small.sum / count) := by
  have hp := sortedCopy_perm vec
  have hs := sortedCopy_sorted vec
  have hl := hp.length_eq
  have hlen : ((sortedCopy vec).take count).length = count := by rw [List.length_take]; omega
  refine ⟨(sortedCopy vec).take count, ⟨hlen, (sortedCopy vec).drop count, ?_, ?_⟩, ?_⟩
  · rw [List.take_append_drop]; exact hp
  · intro a ha b hb
    have : ((sortedCopy vec).take count ++ (sortedCopy vec).drop count).Pairwise (· ≤ ·) := by
      rw [List.take_append_drop]; exact hs
    exact (List.pairwise_append.1 this).2.2 a ha b hb
  · unfold topAverage partialSortCopy
    rw [List.length_replicate, List.drop_eq_nil_of_le (by simpa using h), List.append_nil,
      C42_average _ (by intro h'; rw [h'] at hlen; simp at hlen; omega), hlen]

/-- With `count` larger than the number of elements, zeros are averaged in. -/
theorem C42_top_average_excess (vec : List K) (count : Nat) (h : vec.length < count) :
    topAverage vec count = .ok (vec.sum / count) := by
  have hp := sortedCopy_perm vec
  have hl := hp.length_eq
  have hlen : (sortedCopy vec ++ List.replicate (count - vec.length) (0 : K)).length = count := by
    rw [List.length_append, List.length_replicate]; omega
  unfold topAverage partialSortCopy
  rw [List.length_replicate, List.drop_replicate, List.take_of_length_le (by omega),
    C42_average _ (by intro h'; rw [h'] at hlen; simp at hlen; omega), hlen, List.sum_append, hp.sum_eq]
  simp

/-- So the mean of the elements is not what one gets. -/
theorem C42_top_average_excess_refuted : topAverage [3, (5 : ℚ)] 4 = .ok 2 ∧ average [3, (5 : ℚ)] = .ok 4 := by
  constructor
  · rw [C42_top_average_excess _ _ (by decide)]; norm_num
  · rw [C42_average _ (by simp)]; norm_num

/-- Without elements to average the result is undefined. -/
theorem C42_average_empty : average ([] : List K) = .ub ∧ ∀ vec : List K, topAverage vec 0 = .ub := by
  refine ⟨rfl, fun vec => ?_⟩
  simp [topAverage, partialSortCopy, average]

end

example : median [7, 1, (4 : ℚ)] = .ok 4 ∧ median [7, 1, 4, (2 : ℚ)] = .ok 3 := by decide +kernel

example : topAverage [7, 1, 4, (2 : ℚ)] 3 = .ok (7 / 3) := by decide +kernel

/-- `find_index` is the first index of the value, or `no_index` if there is none. -/
theorem C42_find_index {K : Type} [DecidableEq K] (vec : List K) (val : K) :
    (findIndex vec val = none ↔ val ∉ vec) ∧
    ∀ i, findIndex vec val = some i ↔ vec[i]? = some val ∧ ∀ j, j < i → vec[j]? ≠ some val := by
  have key : ∀ (vec : List K) (n : Nat), (findIndex.go val n vec = none ↔ val ∉ vec) ∧
      ∀ i, findIndex.go val n vec = some i ↔
        n ≤ i ∧ vec[i - n]? = some val ∧ ∀ j, j < i - n → vec[j]? ≠ some val := by
    intro vec
    induction vec with
    | nil => intro n; simp [findIndex.go]
    | cons x xs ih =>
      intro n
      unfold findIndex.go
      by_cases hx : x = val
      · rw [if_pos hx]
        subst hx
        refine ⟨by simp, fun i => ?_⟩
        constructor
        · intro h
          injection h with h
          subst h
          simp
        · rintro ⟨h1, h2, h3⟩
          rcases Nat.eq_zero_or_pos (i - n) with h0 | h0
          · congr 1; omega
          · exact absurd (by simp) (h3 0 h0)
      · rw [if_neg hx]
        have := ih (n + 1)
        refine ⟨by rw [this.1, List.mem_cons]; simp [Ne.symm hx], fun i => ?_⟩
        rw [this.2 i]
        constructor
        · rintro ⟨h1, h2, h3⟩
          refine ⟨by omega, ?_, ?_⟩
          · rw [show i - n = (i - (n + 1)) + 1 by omega, List.getElem?_cons_succ]; exact h2
          · intro j hj
            cases j with
            | zero => simpa using hx
            | succ j => rw [List.getElem?_cons_succ]; exact h3 j (by omega)
        · rintro ⟨h1, h2, h3⟩
          rcases Nat.eq_zero_or_pos (i - n) with h0 | h0
          · rw [h0] at h2; simp at h2; exact absurd h2 hx
          · refine ⟨by omega, ?_, ?_⟩
            · rw [show i - n = (i - (n + 1)) + 1 by omega, List.getElem?_cons_succ] at h2; exact h2
            · intro j hj
              have := h3 (j + 1) (by omega)
              rwa [List.getElem?_cons_succ] at this
  have := key vec 0
  exact ⟨this.1, fun i => by simpa [findIndex] using this.2 i⟩

example : findIndex [5, 6, 7, 6] 6 = some 1 ∧ findIndex [5, 6, 7, 6] 8 = none := by decide

/-- `back_index` is the index of the last element, and throws if there is none. -/
theorem C42_back_index {K : Type} (vec : List K) :
    (vec = [] → backIndex vec = .throws .assertion) ∧
    (∀ init x, vec = init ++ [x] → backIndex vec = .ok init.length ∧ vec[init.length]? = some x) := by
  refine ⟨fun h => by subst h; rfl, ?_⟩
  rintro init x rfl
  simp [backIndex]

/-- With any sort that meets the standard's contract, `sort_indices` lists every index once, and reading the container in
this order gives its elements in non-decreasing order. -/
theorem C42_sort_indices {K : Type} [LinearOrder K] (sort : (Nat → Nat → Bool) → List Nat → List Nat)
    (hsort : SortContract sort) (v : List K) :
    (sortIndices sort v).Perm (List.range v.length) ∧
    ((sortIndices sort v).filterMap (v[·]?)).Pairwise (· ≤ ·) ∧
    ((sortIndices sort v).filterMap (v[·]?)).Perm v := by
  obtain ⟨hp, hs⟩ := hsort (fun i1 i2 => match v[i1]?, v[i2]? with
    | some a, some b => decide (a < b)
    | _, _ => false) (List.range v.length)
    (fun a ha => by
      rw [List.mem_range] at ha
      simp [ha])
    (fun a ha b hb c hc => by
      rw [List.mem_range] at ha hb hc
      simp only [ha, hb, hc, List.getElem?_eq_getElem, decide_eq_true_eq]
      exact lt_trans)
    (fun a ha b hb c hc => by
      rw [List.mem_range] at ha hb hc
      simp only [ha, hb, hc, List.getElem?_eq_getElem, decide_eq_false_iff_not, not_lt]
      exact fun h1 h2 => le_trans h2 h1)
  refine ⟨hp, ?_, ?_⟩
  · rw [List.pairwise_filterMap]
    refine List.Pairwise.imp_of_mem ?_ hs
    intro i j hi hj hij x hx y hy
    rw [hx, hy] at hij
    simpa using hij
  · refine (hp.filterMap _).trans ?_
    have : ∀ n, n ≤ v.length → (List.range n).filterMap (v[·]?) = v.take n := by
      intro n
      induction n with
      | zero => simp
      | succ n ih =>
        intro hn
        rw [List.range_succ, List.filterMap_append, ih (by omega), List.take_add_one]
        simp [List.getElem?_eq_getElem (show n < v.length by omega)]
    rw [this _ le_rfl, List.take_length]

/-- The contract can be met: insertion sort does. -/
example : SortContract (fun lt l => l.insertionSort (fun a b => lt b a = false)) := by
  intro lt l h1 h2 h3
  refine ⟨List.perm_insertionSort _ _, ?_⟩
  have total : ∀ a ∈ l, ∀ b ∈ l, lt a b = true → lt b a = false := by
    intro a ha b hb hab
    cases hba : lt b a
    · rfl
    · rw [← h1 a ha, h2 a ha b hb a ha hab hba]
  have ins : ∀ x ∈ l, ∀ s : List Nat, (∀ a ∈ s, a ∈ l) → s.Pairwise (fun a b => lt b a = false) →
      (s.orderedInsert (fun a b => lt b a = false) x).Pairwise (fun a b => lt b a = false) := by
    intro x hx s
    induction s with
    | nil => intro _ _; simp
    | cons y s ih =>
      intro hm hp
      have hy := hm y (by simp)
      rw [List.pairwise_cons] at hp
      rw [List.orderedInsert_cons]
      split
      · rename_i hyx
        refine List.pairwise_cons.2 ⟨?_, List.pairwise_cons.2 hp⟩
        intro a ha
        rcases List.mem_cons.1 ha with rfl | ha
        · exact hyx
        · exact h3 a (hm a (by simp [ha])) y hy x hx (hp.1 a ha) hyx
      · rename_i hyx
        refine List.pairwise_cons.2 ⟨?_, ih (fun a ha => hm a (by simp [ha])) hp.2⟩
        intro a ha
        rw [List.mem_orderedInsert] at ha
        rcases ha with rfl | ha
        · exact total y hy a hx (by simpa using hyx)
        · exact hp.1 a ha
  have : ∀ s : List Nat, (∀ a ∈ s, a ∈ l) →
      (s.insertionSort (fun a b => lt b a = false)).Pairwise (fun a b => lt b a = false) := by
    intro s
    induction s with
    | nil => intro _; simp
    | cons x s ih =>
      intro hm
      rw [List.insertionSort_cons]
      exact ins x (hm x (by simp)) _ (fun a ha => hm a (by
        rw [List.mem_cons]; right; exact (List.perm_insertionSort _ _).subset ha))
        (ih (fun a ha => hm a (by simp [ha])))
  exact this l (fun a ha => ha)

example : sortIndices (fun lt l => l.insertionSort (fun a b => lt b a = false)) [30, 10, 20, 10] = [1, 3, 2, 0] := by
  decide

/-- Iterating a `view_if` visits exactly the elements that satisfy the predicate, in order, and then ends. -/
theorem C42_view_if {K : Type} (pred : K → Bool) (cont : List K) : viewAll pred cont = .ok (cont.filter pred) := by
  have h1 : ∀ l : List K, (nextMatch pred l).filter pred = l.filter pred ∧ (nextMatch pred l).length ≤ l.length ∧
      (∀ x xs, nextMatch pred l = x :: xs → pred x = true) := by
    intro l
    induction l with
    | nil => simp [nextMatch]
    | cons x xs ih =>
      unfold nextMatch
      by_cases hx : pred x = true
      · rw [if_pos hx]
        refine ⟨rfl, le_rfl, ?_⟩
        intro y ys h
        injection h with h _
        rw [← h]; exact hx
      · rw [if_neg hx]
        refine ⟨?_, ?_, ih.2.2⟩
        · rw [ih.1, List.filter_cons_of_neg hx]
        · simp only [List.length_cons]; omega
  have h2 : ∀ fuel (pos : List K), pos.length ≤ fuel → (∀ x xs, pos = x :: xs → pred x = true) →
      viewLoop pred fuel pos = .ok (pos.filter pred) := by
    intro fuel
    induction fuel with
    | zero =>
      intro pos hl _
      have : pos = [] := List.length_eq_zero_iff.1 (by omega)
      subst this; rfl
    | succ fuel ih =>
      intro pos hl hp
      cases pos with
      | nil => rfl
      | cons x xs =>
        have hx := hp x xs rfl
        have hn := h1 xs
        unfold viewLoop
        rw [if_neg (by simp [viewAt, nextMatch])]
        simp only [viewGet, viewNext, Res.bind_ok]
        rw [ih _ (by simp only [List.length_cons] at hl; omega) hn.2.2, hn.1, List.filter_cons_of_pos hx]
        rfl
  unfold viewAll viewAt
  rw [h2 _ _ (h1 cont).2.1 (h1 cont).2.2, (h1 cont).1]

example : viewAll (fun n : Nat => n % 2 = 0) [1, 2, 3, 4, 6, 7] = .ok [2, 4, 6] := by decide

end Flut
