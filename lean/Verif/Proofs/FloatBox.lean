import Verif.Model.FloatBox
import Verif.Proofs.FloatOps
import Mathlib.Order.OrderDual

/-! # Lemmas for bounding boxes: the first least element of a list -/

namespace Flut

section Pick

variable {α L : Type} [LinearOrder L] {pos : α → Option L} {pick : α → α → α}

/-- `pick a b` is `b` if that is less, otherwise `a`. -/
def Picks (pos : α → Option L) (pick : α → α → α) : Prop :=
  ∀ a b, (∀ x y, pos a = some x → pos b = some y → y < x → pick a b = b) ∧
    ((∀ x y, pos a = some x → pos b = some y → x ≤ y) → pick a b = a)

theorem Picks.nan_left (h : Picks pos pick) {a : α} (b : α) (ha : pos a = none) : pick a b = a :=
  (h a b).2 (by intro x y e; rw [ha] at e; cases e)

theorem Picks.nan_right (h : Picks pos pick) (a : α) {b : α} (hb : pos b = none) : pick a b = a :=
  (h a b).2 (by intro x y _ e; rw [hb] at e; cases e)

theorem Picks.lt (h : Picks pos pick) {a b : α} {x y : L} (ha : pos a = some x) (hb : pos b = some y) (hl : y < x) : pick a b = b :=
  (h a b).1 x y ha hb hl

theorem Picks.le (h : Picks pos pick) {a b : α} {x y : L} (ha : pos a = some x) (hb : pos b = some y) (hl : x ≤ y) : pick a b = a :=
  (h a b).2 (by intro x' y' e e'; rw [ha] at e; rw [hb] at e'; cases e; cases e'; exact hl)

theorem Picks.fold_nan (h : Picks pos pick) {a : α} (xs : List α) (ha : pos a = none) : xs.foldl pick a = a := by
  induction xs with
  | nil => rfl
  | cons x xs ih => rw [List.foldl_cons, h.nan_left x ha, ih]

/-- The result is at most the start and every number in the list. -/
theorem Picks.fold_le (h : Picks pos pick) {a : α} {x : L} (xs : List α) (ha : pos a = some x) :
    ∃ m, pos (xs.foldl pick a) = some m ∧ m ≤ x ∧ ∀ b ∈ xs, ∀ y, pos b = some y → m ≤ y := by
  induction xs generalizing a x with
  | nil => exact ⟨x, ha, le_rfl, by simp⟩
  | cons b xs ih =>
    rw [List.foldl_cons]
    cases hb : pos b with
    | none =>
      rw [h.nan_right a hb]
      obtain ⟨m, h1, h2, h3⟩ := ih ha
      exact ⟨m, h1, h2, by
        intro c hc y hy
        rcases List.mem_cons.1 hc with rfl | hc
        · rw [hb] at hy; cases hy
        · exact h3 c hc y hy⟩
    | some y =>
      by_cases hl : y < x
      · rw [h.lt ha hb hl]
        obtain ⟨m, h1, h2, h3⟩ := ih hb
        exact ⟨m, h1, h2.trans hl.le, by
          intro c hc z hz
          rcases List.mem_cons.1 hc with rfl | hc
          · rw [hb] at hz; cases hz; exact h2
          · exact h3 c hc z hz⟩
      · rw [h.le ha hb (not_lt.1 hl)]
        obtain ⟨m, h1, h2, h3⟩ := ih ha
        exact ⟨m, h1, h2, by
          intro c hc z hz
          rcases List.mem_cons.1 hc with rfl | hc
          · rw [hb] at hz; cases hz; exact h2.trans (not_lt.1 hl)
          · exact h3 c hc z hz⟩

/-- The result is the start or an element. -/
theorem Picks.fold_mem (h : Picks pos pick) (a : α) (xs : List α) : xs.foldl pick a = a ∨ xs.foldl pick a ∈ xs := by
  induction xs generalizing a with
  | nil => exact .inl rfl
  | cons b xs ih =>
    rw [List.foldl_cons]
    have hp : pick a b = a ∨ pick a b = b := by
      cases ha : pos a with
      | none => exact .inl (h.nan_left b ha)
      | some x =>
        cases hb : pos b with
        | none => exact .inl (h.nan_right a hb)
        | some y =>
          by_cases hl : y < x
          · exact .inr (h.lt ha hb hl)
          · exact .inl (h.le ha hb (not_lt.1 hl))
    rcases ih (pick a b) with e | e
    · rw [e]
      rcases hp with e | e
      · exact .inl e
      · exact .inr (by simp [e])
    · exact .inr (by simp [e])

/-- Elements that are not numbers do not matter. -/
theorem Picks.fold_filter (h : Picks pos pick) (p : α → Bool) (hp : ∀ x, p x = false → pos x = none) (a : α) (xs : List α) :
    (xs.filter p).foldl pick a = xs.foldl pick a := by
  induction xs generalizing a with
  | nil => rfl
  | cons b xs ih =>
    cases e : p b with
    | true => rw [List.filter_cons_of_pos (by simp [e]), List.foldl_cons, List.foldl_cons, ih]
    | false => rw [List.filter_cons_of_neg (by simp [e]), List.foldl_cons, h.nan_right a (hp b e), ih]

/-- The order matters only among equal elements. -/
theorem Picks.fold_perm (h : Picks pos pick) (a : α) {xs ys : List α} (hp : xs.Perm ys) :
    pos (xs.foldl pick a) = pos (ys.foldl pick a) := by
  cases ha : pos a with
  | none => rw [h.fold_nan xs ha, h.fold_nan ys ha]
  | some x =>
    obtain ⟨m, h1, h2, h3⟩ := h.fold_le xs ha
    obtain ⟨n, k1, k2, k3⟩ := h.fold_le ys ha
    rw [h1, k1]
    congr 1
    apply le_antisymm
    · rcases h.fold_mem a ys with e | e
      · rw [e, ha] at k1; cases k1; exact h2
      · exact h3 _ (hp.mem_iff.2 e) _ k1
    · rcases h.fold_mem a xs with e | e
      · rw [e, ha] at h1; cases h1; exact k2
      · exact k3 _ (hp.mem_iff.1 e) _ h1

/-- Taking the least of one list and then of another is taking the least of the two results. -/
theorem Picks.fold_append (h : Picks pos pick) {t : α} {m : L} (ht : pos t = some m) {z : α} {x : L} (hz : pos z = some x) (hle : x ≤ m)
    (ys : List α) : ys.foldl pick z = pick z (ys.foldl pick t) := by
  induction ys generalizing t m z x with
  | nil => exact (h.le hz ht hle).symm
  | cons b ys ih =>
    rw [List.foldl_cons, List.foldl_cons]
    cases hb : pos b with
    | none => rw [h.nan_right z hb, h.nan_right t hb]; exact ih ht hz hle
    | some y =>
      by_cases h1 : y < x
      · rw [h.lt hz hb h1, h.lt ht hb (h1.trans_le hle)]
        obtain ⟨n, k1, k2, -⟩ := h.fold_le ys hb
        exact (h.lt hz k1 (k2.trans_lt h1)).symm
      · rw [h.le hz hb (not_lt.1 h1)]
        by_cases h2 : y < m
        · rw [h.lt ht hb h2]; exact ih hb hz (not_lt.1 h1)
        · rw [h.le ht hb (not_lt.1 h2)]; exact ih ht hz hle

end Pick

open Spec FloatMath

theorem smaller_picks : Picks Flt.pos FloatMath.setIfSmaller := by
  intro a b
  unfold FloatMath.setIfSmaller
  constructor
  · intro x y h1 h2 hl; rw [if_pos (lt_iff.2 ⟨y, x, h2, h1, hl⟩)]
  · intro h
    rw [if_neg]
    intro hl
    obtain ⟨x, y, h1, h2, hl⟩ := lt_iff.1 hl
    exact absurd hl (not_lt.2 (h y x h2 h1))

/-- The position on the line in reverse order. -/
def dualPos (x : Flt) : Option (WithBot (WithTop ℚ))ᵒᵈ := x.pos.map OrderDual.toDual

theorem dualPos_some {x : Flt} {p : WithBot (WithTop ℚ)} : dualPos x = some (OrderDual.toDual p) ↔ x.pos = some p := by
  unfold dualPos
  cases x.pos <;> simp

theorem dualPos_none {x : Flt} : dualPos x = none ↔ x.pos = none := by
  unfold dualPos
  cases x.pos <;> simp

theorem bigger_picks : Picks dualPos FloatMath.setIfBigger := by
  intro a b
  unfold FloatMath.setIfBigger
  constructor
  · intro x y h1 h2 hl
    rw [if_pos (lt_iff.2 ⟨OrderDual.ofDual x, OrderDual.ofDual y, dualPos_some.1 h1, dualPos_some.1 h2, hl⟩)]
  · intro h
    rw [if_neg]
    intro hl
    obtain ⟨x, y, h1, h2, hl⟩ := lt_iff.1 hl
    exact absurd hl (not_lt.2 (h _ _ (dualPos_some.2 h1) (dualPos_some.2 h2)))

end Flut
