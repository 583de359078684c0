import Verif.Model.Extrema
import Verif.Spec.Float
import Verif.Proofs.FloatOps

/-!
# C167: `min_element`, `max_element`, `find`, `find_if` and `find_index`
-/

namespace Flut

open Spec

namespace Search

variable {α P : Type}

/-- The loops for elements that have positions in an order, or none. -/
theorem minFrom_spec [LinearOrder P] (lt : α → α → Bool) (pos : α → Option P)
    (hlt : ∀ a b, lt a b = true ↔ ∃ x y, pos a = some x ∧ pos b = some y ∧ x < y) (xs : List α) :
    ∀ (pre : List α) (best : Nat) (b : α) (p : P), pre[best]? = some b → pos b = some p →
    (∀ j y q, pre[j]? = some y → pos y = some q → p ≤ q ∧ (j < best → p < q)) →
    ∃ m p, (pre ++ xs)[minFrom lt xs pre.length best b]? = some m ∧ pos m = some p ∧
      ∀ j y q, (pre ++ xs)[j]? = some y → pos y = some q → p ≤ q ∧ (j < minFrom lt xs pre.length best b → p < q) := by
  induction xs with
  | nil =>
    intro pre best b p h1 h2 h3
    exact ⟨b, p, by simpa [minFrom] using h1, h2, by simpa [minFrom] using h3⟩
  | cons x xs ih =>
    intro pre best b p h1 h2 h3
    have e : pre ++ x :: xs = (pre ++ [x]) ++ xs := by simp
    have el : pre.length + 1 = (pre ++ [x]).length := by simp
    have hb : best < pre.length := (List.getElem?_eq_some_iff.1 h1).1
    unfold minFrom
    rw [e, el]
    have hsplit : ∀ j y, (pre ++ [x])[j]? = some y → pre[j]? = some y ∧ j < pre.length ∨ j = pre.length ∧ y = x := by
      intro j y hj
      rcases Nat.lt_trichotomy j pre.length with hl | hl | hl
      · left
        rw [List.getElem?_append_left hl] at hj
        exact ⟨hj, hl⟩
      · right
        subst hl
        simp at hj
        exact ⟨rfl, hj.symm⟩
      · rw [List.getElem?_eq_none (by simp; omega)] at hj
        cases hj
    by_cases hc : lt x b = true
    · rw [if_pos hc]
      obtain ⟨u, v, hu, hv, huv⟩ := (hlt x b).1 hc
      rw [h2] at hv
      cases hv
      refine ih (pre ++ [x]) pre.length x u (by simp) hu ?_
      intro j y q hj hq
      rcases hsplit j y hj with ⟨h, _⟩ | ⟨h, rfl⟩
      · have := lt_of_lt_of_le huv (h3 j y q h hq).1
        exact ⟨le_of_lt this, fun _ => this⟩
      · rw [hu] at hq
        cases hq
        exact ⟨le_refl _, fun h' => by omega⟩
    · rw [if_neg hc]
      refine ih (pre ++ [x]) best b p (by rw [List.getElem?_append_left hb]; exact h1) h2 ?_
      intro j y q hj hq
      rcases hsplit j y hj with ⟨h, _⟩ | ⟨h, rfl⟩
      · exact h3 j y q h hq
      · refine ⟨?_, fun h' => by omega⟩
        by_contra hn
        exact hc ((hlt y b).2 ⟨q, p, hq, h2, not_le.1 hn⟩)

theorem maxFrom_eq (lt : α → α → Bool) (xs : List α) (i best : Nat) (b : α) : maxFrom lt xs i best b = minFrom (fun x y => lt y x) xs i best b := by
  induction xs generalizing i best b with
  | nil => rfl
  | cons x xs ih =>
    unfold maxFrom minFrom
    rw [ih, ih]

theorem minElement_spec [LinearOrder P] (lt : α → α → Bool) (pos : α → Option P)
    (hlt : ∀ a b, lt a b = true ↔ ∃ x y, pos a = some x ∧ pos b = some y ∧ x < y) (x : α) (xs : List α) (p : P) (hx : pos x = some p) :
    ∃ m p, (x :: xs)[minElement lt (x :: xs)]? = some m ∧ pos m = some p ∧
      ∀ j y q, (x :: xs)[j]? = some y → pos y = some q → p ≤ q ∧ (j < minElement lt (x :: xs) → p < q) := by
  refine minFrom_spec lt pos hlt xs [x] 0 x p rfl hx ?_
  intro j y q hj hq
  cases j with
  | zero =>
    cases hj
    rw [hx] at hq
    cases hq
    exact ⟨le_refl _, fun h => by omega⟩
  | succ j => cases hj

theorem maxElement_spec [LinearOrder P] (lt : α → α → Bool) (pos : α → Option P)
    (hlt : ∀ a b, lt a b = true ↔ ∃ x y, pos a = some x ∧ pos b = some y ∧ x < y) (x : α) (xs : List α) (p : P) (hx : pos x = some p) :
    ∃ m p, (x :: xs)[maxElement lt (x :: xs)]? = some m ∧ pos m = some p ∧
      ∀ j y q, (x :: xs)[j]? = some y → pos y = some q → q ≤ p ∧ (j < maxElement lt (x :: xs) → q < p) := by
  have e : maxElement lt (x :: xs) = minElement (fun a b => lt b a) (x :: xs) := maxFrom_eq lt xs 1 0 x
  rw [e]
  refine minElement_spec (P := Pᵒᵈ) (fun a b => lt b a) pos ?_ x xs p hx
  intro a b
  rw [hlt]
  exact ⟨fun ⟨u, v, h1, h2, h3⟩ => ⟨v, u, h2, h1, h3⟩, fun ⟨u, v, h1, h2, h3⟩ => ⟨v, u, h2, h1, h3⟩⟩

theorem findIfFrom_spec (p : α → Bool) (l : List α) (i : Nat) :
    ∃ k ≤ l.length, findIfFrom p l i = i + k ∧ (∀ j y, j < k → l[j]? = some y → p y = false) ∧ ∀ y, l[k]? = some y → p y = true := by
  induction l generalizing i with
  | nil => exact ⟨0, by simp, rfl, by simp, by simp⟩
  | cons x xs ih =>
    unfold findIfFrom
    by_cases hc : p x = true
    · rw [if_pos hc]
      exact ⟨0, by simp, rfl, fun j _ hj => by omega, fun y hy => by cases hy; exact hc⟩
    · rw [if_neg hc]
      obtain ⟨k, h1, h2, h3, h4⟩ := ih (i + 1)
      refine ⟨k + 1, by simpa using h1, by omega, ?_, fun y hy => h4 y hy⟩
      intro j y hj hy
      cases j with
      | zero => cases hy; simpa using hc
      | succ j => exact h3 j y (by omega) hy

theorem fltEq_iff (a b : Flt) : fltEq a b = true ↔ ∃ p, a.pos = some p ∧ b.pos = some p := by
  cases a with
  | nan s => simp [fltEq, Flt.pos]
  | inf s => cases b with
    | nan s' => cases s <;> simp [fltEq, Flt.pos]
    | inf s' => cases s <;> cases s' <;> simp [fltEq, Flt.pos]
    | fin s' m' => cases s <;> simp [fltEq, Flt.pos]
  | fin s m => cases b with
    | nan s' => simp [fltEq, Flt.pos]
    | inf s' => cases s' <;> simp [fltEq, Flt.pos]
    | fin s' m' =>
      simp only [fltEq, Flt.pos, decide_eq_true_eq]
      constructor
      · intro h
        exact ⟨_, rfl, by rw [h]⟩
      · rintro ⟨p, h1, h2⟩
        have := h1.trans h2.symm
        simpa using this

end Search

/-- In a container of elements that have a linear order, `min_element` finds the first smallest and `max_element` the first largest. -/
theorem C167_order {α : Type} [LinearOrder α] (l : List α) (h : l ≠ []) :
    (∃ m, l[Search.minElement (fun a b => decide (a < b)) l]? = some m ∧
      ∀ j y, l[j]? = some y → m ≤ y ∧ (j < Search.minElement (fun a b => decide (a < b)) l → m < y)) ∧
    ∃ m, l[Search.maxElement (fun a b => decide (a < b)) l]? = some m ∧
      ∀ j y, l[j]? = some y → y ≤ m ∧ (j < Search.maxElement (fun a b => decide (a < b)) l → y < m) := by
  obtain ⟨x, xs, rfl⟩ := List.exists_cons_of_ne_nil h
  have hlt : ∀ a b : α, decide (a < b) = true ↔ ∃ u v, some a = some u ∧ some b = some v ∧ u < v := by
    intro a b
    simp
  constructor
  · obtain ⟨m, p, h1, h2, h3⟩ := Search.minElement_spec _ some hlt x xs x rfl
    cases h2
    exact ⟨m, h1, fun j y hy => h3 j y y hy rfl⟩
  · obtain ⟨m, p, h1, h2, h3⟩ := Search.maxElement_spec _ some hlt x xs x rfl
    cases h2
    exact ⟨m, h1, fun j y hy => h3 j y y hy rfl⟩

example : Search.minElement (fun a b => decide (a < b)) [3, 1, 4, 1, 5, 5] = 1 ∧
    Search.maxElement (fun a b => decide (a < b)) [3, 1, 4, 1, 5, 5] = 4 := by decide

/-- In a container of floating-point numbers whose first element is a number, both do so among the numbers; the others are skipped. -/
theorem C167_float (x : Flt) (xs : List Flt) (hx : IsNumber x) :
    (∃ m, (x :: xs)[Search.minElement Flt.lt (x :: xs)]? = some m ∧ IsNumber m ∧
      ∀ j y, (x :: xs)[j]? = some y → IsNumber y → AtMost m y ∧ (j < Search.minElement Flt.lt (x :: xs) → Below m y)) ∧
    ∃ m, (x :: xs)[Search.maxElement Flt.lt (x :: xs)]? = some m ∧ IsNumber m ∧
      ∀ j y, (x :: xs)[j]? = some y → IsNumber y → AtMost y m ∧ (j < Search.maxElement Flt.lt (x :: xs) → Below y m) := by
  obtain ⟨p, hp⟩ := hx
  constructor
  · obtain ⟨m, p, h1, h2, h3⟩ := Search.minElement_spec Flt.lt Flt.pos (fun a b => lt_iff) x xs p hp
    refine ⟨m, h1, ⟨p, h2⟩, ?_⟩
    rintro j y hj ⟨q, hq⟩
    exact ⟨⟨p, q, h2, hq, (h3 j y q hj hq).1⟩, fun h => ⟨p, q, h2, hq, (h3 j y q hj hq).2 h⟩⟩
  · obtain ⟨m, p, h1, h2, h3⟩ := Search.maxElement_spec Flt.lt Flt.pos (fun a b => lt_iff) x xs p hp
    refine ⟨m, h1, ⟨p, h2⟩, ?_⟩
    rintro j y hj ⟨q, hq⟩
    exact ⟨⟨q, p, hq, h2, (h3 j y q hj hq).1⟩, fun h => ⟨q, p, hq, h2, (h3 j y q hj hq).2 h⟩⟩

example : Search.minElement Flt.lt [.fin false 1, .nan false, .fin true 2, .inf false] = 2 ∧
    Search.maxElement Flt.lt [.fin false 1, .nan false, .fin true 2, .inf false] = 3 := by decide +kernel

/-- If the first element is not a number, it is found as the smallest and as the largest, whatever follows. -/
theorem C167_nan_first_refuted (s : Bool) (xs : List Flt) :
    Search.minElement Flt.lt (.nan s :: xs) = 0 ∧ Search.maxElement Flt.lt (.nan s :: xs) = 0 := by
  have h1 : ∀ (xs : List Flt) i, Search.minFrom Flt.lt xs i 0 (.nan s) = 0 := by
    intro xs
    induction xs with
    | nil => intro i; rfl
    | cons x xs ih =>
      intro i
      unfold Search.minFrom
      rw [if_neg (by cases x <;> simp [Flt.lt]), ih]
  have h2 : ∀ (xs : List Flt) i, Search.maxFrom Flt.lt xs i 0 (.nan s) = 0 := by
    intro xs
    induction xs with
    | nil => intro i; rfl
    | cons x xs ih =>
      intro i
      unfold Search.maxFrom
      rw [if_neg (by cases x <;> simp [Flt.lt]), ih]
  exact ⟨h1 xs 1, h2 xs 1⟩

/-- In an empty container they return the end. -/
theorem C167_empty {α : Type} (lt : α → α → Bool) (l : List α) :
    (Search.minElement lt l = l.length ↔ l = []) ∧ (Search.maxElement lt l = l.length ↔ l = []) := by
  have key : ∀ (lt : α → α → Bool) (xs : List α) i best b, best < i → Search.minFrom lt xs i best b < i + xs.length := by
    intro lt xs
    induction xs with
    | nil => intro i best b h; simpa [Search.minFrom] using h
    | cons x xs ih =>
      intro i best b h
      unfold Search.minFrom
      split
      · have := ih (i + 1) i x (by omega)
        simp only [List.length_cons]
        omega
      · have := ih (i + 1) best b (by omega)
        simp only [List.length_cons]
        omega
  cases l with
  | nil => simp [Search.minElement, Search.maxElement]
  | cons x xs =>
    have h1 := key lt xs 1 0 x (by omega)
    have h2 := key (fun a b => lt b a) xs 1 0 x (by omega)
    rw [← Search.maxFrom_eq] at h2
    refine ⟨⟨fun h => ?_, fun h => by cases h⟩, fun h => ?_, fun h => by cases h⟩
    · simp only [Search.minElement, List.length_cons] at h
      omega
    · simp only [Search.maxElement, List.length_cons] at h
      omega

/-- `find_if` finds the first element that satisfies the predicate, or the end if none does. -/
theorem C167_find_if {α : Type} (p : α → Bool) (l : List α) :
    (∀ j y, j < Search.findIf p l → l[j]? = some y → p y = false) ∧
    (Search.findIf p l = l.length ∧ (∀ y ∈ l, p y = false) ∨ ∃ y, l[Search.findIf p l]? = some y ∧ p y = true) := by
  obtain ⟨k, h1, h2, h3, h4⟩ := Search.findIfFrom_spec p l 0
  rw [Nat.zero_add] at h2
  have e : Search.findIf p l = k := h2
  rw [e]
  refine ⟨h3, ?_⟩
  rcases Nat.lt_or_ge k l.length with hk | hk
  · exact Or.inr ⟨l[k], by simp, h4 _ (by simp)⟩
  · left
    refine ⟨by omega, ?_⟩
    intro y hy
    obtain ⟨j, hj⟩ := List.mem_iff_getElem?.1 hy
    have := (List.getElem?_eq_some_iff.1 hj).1
    exact h3 j y (by omega) hj

example : Search.findIf (fun x => x % 2 == 0) [3, 5, 4, 7, 2] = 2 := by decide

/-- `find` and `find_index` of a floating-point number find the first element at the same place on the line, so either zero for either
zero; if there is none, and always for something that is not a number, they return the end and `no_index`. -/
theorem C167_find_float (l : List Flt) (e : Flt) :
    (∀ i, Search.findIndex Search.fltEq l e = some i → Search.find Search.fltEq l e = i ∧ (∃ y p, l[i]? = some y ∧ y.pos = some p ∧ e.pos = some p) ∧
      ∀ j y, j < i → l[j]? = some y → ∀ p, y.pos = some p → e.pos ≠ some p) ∧
    (Search.findIndex Search.fltEq l e = none → Search.find Search.fltEq l e = l.length ∧ ∀ y ∈ l, ∀ p, y.pos = some p → e.pos ≠ some p) := by
  obtain ⟨h1, h2⟩ := C167_find_if (fun x => Search.fltEq x e) l
  change ∀ j y, j < Search.find Search.fltEq l e → _ at h1
  change Search.find Search.fltEq l e = _ ∧ _ ∨ ∃ y, l[Search.find Search.fltEq l e]? = _ ∧ _ at h2
  have hn : ∀ y, Search.fltEq y e = false → ∀ p, y.pos = some p → e.pos ≠ some p := by
    intro y hy p hp he
    rw [(Search.fltEq_iff y e).2 ⟨p, hp, he⟩] at hy
    cases hy
  unfold Search.findIndex
  dsimp only
  constructor
  · intro i hi
    split at hi
    · cases hi
    · rename_i hne
      cases hi
      refine ⟨rfl, ?_, fun j y hj hy => hn y (h1 j y hj hy)⟩
      rcases h2 with ⟨h2, _⟩ | ⟨y, h2, h3⟩
      · exact absurd h2 hne
      · obtain ⟨p, hp, he⟩ := (Search.fltEq_iff y e).1 h3
        exact ⟨y, p, h2, hp, he⟩
  · intro hi
    split at hi
    · rename_i he
      refine ⟨he, ?_⟩
      rcases h2 with ⟨_, h2⟩ | ⟨y, h2, _⟩
      · exact fun y hy => hn y (h2 y hy)
      · rw [he] at h2
        simp at h2
    · cases hi

/-- A negative zero is found as zero. -/
example : Search.findIndex Search.fltEq [.fin false 1, .nan false, .fin true 0] (.fin false 0) = some 2 := by decide +kernel

/-- So an element that is in the container is not always found. -/
theorem C167_find_nan_refuted (s : Bool) (l : List Flt) : Search.findIndex Search.fltEq (.nan s :: l) (.nan s) = none := by
  cases h : Search.findIndex Search.fltEq (.nan s :: l) (.nan s) with
  | none => rfl
  | some i =>
    obtain ⟨_, ⟨y, p, _, _, hp⟩, _⟩ := (C167_find_float _ _).1 i h
    cases hp

end Flut
