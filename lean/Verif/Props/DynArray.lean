import Verif.Spec.Arrays

/-! # C93, C94: `dynarray` and `clone` copy what they hold -/

namespace Flut

open Spec

variable {α : Type}

/-- The variable owns the block. -/
def Owns (v : Option DynArray) (b : Nat) : Prop := ∃ a, v = some a ∧ a.data = some b

/-- A variable holds what the slot says. -/
def SlotRel (h : Heap α) (v : Option DynArray) : Slot α → Prop
  | .gone => v = none
  | .moved => ∃ a, v = some a ∧ a.data = none
  | .val xs => (v = some {} ∧ xs = []) ∨ ∃ b, v = some { data := some b, stop := some (b, xs.length) } ∧ h.cell b = some xs

theorem SlotRel.frame {h h' : Heap α} {v : Option DynArray} {sl : Slot α} (r : SlotRel h v sl)
    (hf : ∀ b, Owns v b → h'.cell b = h.cell b) : SlotRel h' v sl := by
  cases sl with
  | gone => exact r
  | moved => exact r
  | val xs =>
    rcases r with r | ⟨b, rfl, hb⟩
    · exact .inl r
    · exact .inr ⟨b, rfl, by rw [hf b ⟨_, rfl, rfl⟩, hb]⟩

/-- The state of memory and the plain values agree, every block has one owner and every owner a block. -/
structure ArrayRep (s : Arrays α) (t : List (Slot α)) : Prop where
  len : s.vars.length = t.length
  rel : ∀ (i : Nat) v sl, s.vars[i]? = some v → t[i]? = some sl → SlotRel s.heap v sl
  one : ∀ (i j : Nat) v w b, s.vars[i]? = some v → s.vars[j]? = some w → Owns v b → Owns w b → i = j
  live : ∀ (i : Nat) v b, s.vars[i]? = some v → Owns v b → s.heap.cell b ≠ none
  fresh : ∀ b, s.heap.cell b ≠ none → b < s.heap.next
  owner : ∀ b, s.heap.cell b ≠ none → ∃ (i : Nat) (v : _), s.vars[i]? = some v ∧ Owns v b

theorem arrayRep_nil : ArrayRep ({} : Arrays α) [] where
  len := rfl
  rel := by simp
  one := by simp
  live := by simp
  fresh := by intro b h; exact absurd rfl h
  owner := by intro b h; exact absurd rfl h

theorem ArrayRep.slot {s : Arrays α} {t : List (Slot α)} (r : ArrayRep s t) {i : Nat} {sl : Slot α} (h : t[i]? = some sl) :
    ∃ v, s.vars[i]? = some v ∧ SlotRel s.heap v sl := by
  have hi : i < t.length := by
    obtain ⟨h, _⟩ := List.getElem?_eq_some_iff.1 h; exact h
  have hv : s.vars[i]? = some (s.vars[i]'(by rw [r.len]; exact hi)) := List.getElem?_eq_getElem _
  exact ⟨_, hv, r.rel i _ _ hv h⟩

/-- Replacing a variable. -/
theorem ArrayRep.set {s : Arrays α} {t : List (Slot α)} (r : ArrayRep s t) {i : Nat} {v v' : Option DynArray} {sl' : Slot α} {h' : Heap α}
    (hv : s.vars[i]? = some v) (hsl : SlotRel h' v' sl')
    (hframe : ∀ b, ¬ Owns v b → ¬ Owns v' b → h'.cell b = s.heap.cell b)
    (hnew : ∀ b, Owns v' b → Owns v b ∨ s.heap.cell b = none)
    (hlive : ∀ b, Owns v' b → h'.cell b ≠ none)
    (hdead : ∀ b, Owns v b → h'.cell b ≠ none → Owns v' b)
    (hfresh : ∀ b, h'.cell b ≠ none → b < h'.next) :
    ArrayRep { heap := h', vars := s.vars.set i v' } (t.set i sl') := by
  have hi : i < s.vars.length := (List.getElem?_eq_some_iff.1 hv).1
  have hget : ∀ j w, (s.vars.set i v')[j]? = some w → (j = i ∧ w = v') ∨ (j ≠ i ∧ s.vars[j]? = some w) := by
    intro j w h
    by_cases hj : j = i
    · subst hj
      rw [List.getElem?_set_self hi] at h
      exact .inl ⟨rfl, (Option.some.inj h).symm⟩
    · rw [List.getElem?_set_ne (Ne.symm hj)] at h
      exact .inr ⟨hj, h⟩
  have hother : ∀ j w b, j ≠ i → s.vars[j]? = some w → Owns w b → ¬ Owns v b ∧ ¬ Owns v' b := by
    intro j w b hj hw hb
    have h1 : ¬ Owns v b := fun hb' => hj (r.one j i w v b hw hv hb hb')
    refine ⟨h1, fun hb' => ?_⟩
    rcases hnew b hb' with h | h
    · exact h1 h
    · exact r.live j w b hw hb h
  constructor
  · simpa using r.len
  · intro j w sl hw hs
    rcases hget j w hw with ⟨rfl, rfl⟩ | ⟨hj, hw⟩
    · have hi' : j < t.length := by rw [← r.len]; exact hi
      rw [List.getElem?_set_self hi'] at hs
      cases hs
      exact hsl
    · rw [List.getElem?_set_ne (Ne.symm hj)] at hs
      apply (r.rel j w sl hw hs).frame
      intro b hb
      obtain ⟨h1, h2⟩ := hother j w b hj hw hb
      exact hframe b h1 h2
  · intro j k w x b hw hx hb hb'
    rcases hget j w hw with ⟨rfl, rfl⟩ | ⟨hj, hw2⟩
    · rcases hget k x hx with ⟨rfl, rfl⟩ | ⟨hk, hx2⟩
      · rfl
      · exact absurd hb (hother k x b hk hx2 hb').2
    · rcases hget k x hx with ⟨rfl, rfl⟩ | ⟨hk, hx2⟩
      · exact absurd hb' (hother j w b hj hw2 hb).2
      · exact r.one j k w x b hw2 hx2 hb hb'
  · intro j w b hw hb
    rcases hget j w hw with ⟨rfl, rfl⟩ | ⟨hj, hw⟩
    · exact hlive b hb
    · obtain ⟨h1, h2⟩ := hother j w b hj hw hb
      show h'.cell b ≠ none
      rw [hframe b h1 h2]
      exact r.live j w b hw hb
  · exact hfresh
  · intro b hb
    by_cases h2 : Owns v' b
    · exact ⟨i, v', List.getElem?_set_self hi, h2⟩
    · have h1 : ¬ Owns v b := fun h => h2 (hdead b h hb)
      have hb' : s.heap.cell b ≠ none := by rw [← hframe b h1 h2]; exact hb
      obtain ⟨j, w, hw, ho⟩ := r.owner b hb'
      have hj : j ≠ i := by
        rintro rfl
        rw [hv] at hw
        cases hw
        exact h1 ho
      exact ⟨j, w, by show (s.vars.set i v')[j]? = _; rw [List.getElem?_set_ne (Ne.symm hj)]; exact hw, ho⟩

/-- Adding a variable. -/
theorem ArrayRep.push {s : Arrays α} {t : List (Slot α)} (r : ArrayRep s t) {a : DynArray} {sl : Slot α} {h' : Heap α}
    (hsl : SlotRel h' (some a) sl) (hframe : ∀ b, a.data ≠ some b → h'.cell b = s.heap.cell b)
    (hnew : ∀ b, a.data = some b → s.heap.cell b = none) (hlive : ∀ b, a.data = some b → h'.cell b ≠ none)
    (hfresh : ∀ b, h'.cell b ≠ none → b < h'.next) :
    ArrayRep (s.push (h', a)) (t ++ [sl]) := by
  have hget : ∀ (j : Nat) w, (s.vars ++ [some a])[j]? = some w → (j = s.vars.length ∧ w = some a) ∨ s.vars[j]? = some w := by
    intro j w h
    rcases Nat.lt_trichotomy j s.vars.length with hj | hj | hj
    · rw [List.getElem?_append_left hj] at h; exact .inr h
    · subst hj; simp at h; exact .inl ⟨rfl, h.symm⟩
    · rw [List.getElem?_eq_none (by simp; omega)] at h; cases h
  have hlt : ∀ {j : Nat} {w}, s.vars[j]? = some w → j < s.vars.length := fun h => (List.getElem?_eq_some_iff.1 h).1
  have hother : ∀ (j : Nat) w b, s.vars[j]? = some w → Owns w b → a.data ≠ some b := fun j w b hw hb h =>
    r.live j w b hw hb (hnew b h)
  constructor
  · simp [Arrays.push, r.len]
  · intro j w sl' hw hs
    rcases hget j w hw with ⟨rfl, rfl⟩ | hw
    · rw [r.len] at hs
      simp at hs
      subst hs
      exact hsl
    · rw [List.getElem?_append_left (by rw [← r.len]; exact hlt hw)] at hs
      exact (r.rel j w sl' hw hs).frame fun b hb => hframe b (hother j w b hw hb)
  · intro j k w x b hw hx hb hb'
    rcases hget j w hw with ⟨rfl, rfl⟩ | hw
    · obtain ⟨_, h1, h2⟩ := hb
      cases h1
      rcases hget k x hx with ⟨rfl, rfl⟩ | hx
      · rfl
      · exact absurd h2 (hother k x b hx hb')
    · rcases hget k x hx with ⟨rfl, rfl⟩ | hx
      · obtain ⟨_, h1, h2⟩ := hb'
        cases h1
        exact absurd h2 (hother j w b hw hb)
      · exact r.one j k w x b hw hx hb hb'
  · intro j w b hw hb
    rcases hget j w hw with ⟨rfl, rfl⟩ | hw
    · obtain ⟨_, h1, h2⟩ := hb
      cases h1
      exact hlive b h2
    · show h'.cell b ≠ none
      rw [hframe b (hother j w b hw hb)]
      exact r.live j w b hw hb
  · exact hfresh
  · intro b hb
    by_cases h : a.data = some b
    · exact ⟨s.vars.length, some a, by simp [Arrays.push], a, rfl, h⟩
    · have hb' : s.heap.cell b ≠ none := by rw [← hframe b h]; exact hb
      obtain ⟨j, w, hw, ho⟩ := r.owner b hb'
      exact ⟨j, w, by show (s.vars ++ [some a])[j]? = _; rw [List.getElem?_append_left (hlt hw)]; exact hw, ho⟩

theorem val_size {h : Heap α} {a : DynArray} {xs : List (Option α)} (r : SlotRel h (some a) (.val xs)) :
    a.size = .ok xs.length ∧ a.elements h = .ok xs := by
  rcases r with ⟨h1, rfl⟩ | ⟨b, h1, hb⟩
  · cases h1; exact ⟨rfl, rfl⟩
  · cases h1
    simp [DynArray.size, DynArray.elements, hb]

theorem valOf_ok {t : List (Slot α)} {i : Nat} {xs : List (Option α)} (h : valOf t i = .ok xs) : t[i]? = some (.val xs) := by
  unfold valOf at h
  split at h
  · cases h; assumption
  · cases h

theorem wholeOf_ok {t : List (Slot α)} {i : Nat} {xs : List (Option α)} (h : wholeOf t i = .ok xs) :
    t[i]? = some (.val xs) ∧ xs.all Option.isSome = true := by
  unfold wholeOf at h
  rw [Res.bind_eq_ok] at h
  obtain ⟨ys, h1, h2⟩ := h
  split at h2
  · cases h2; exact ⟨valOf_ok h1, by assumption⟩
  · cases h2

theorem ArrayRep.val {s : Arrays α} {t : List (Slot α)} (r : ArrayRep s t) {i : Nat} {xs : List (Option α)} (h : valOf t i = .ok xs) :
    ∃ a, s.var i = .ok a ∧ s.vars[i]? = some (some a) ∧ SlotRel s.heap (some a) (.val xs) := by
  obtain ⟨v, hv, hs⟩ := r.slot (valOf_ok h)
  obtain ⟨a, rfl⟩ : ∃ a, v = some a := by
    rcases hs with ⟨rfl, _⟩ | ⟨b, rfl, _⟩ <;> exact ⟨_, rfl⟩
  exact ⟨a, by simp [Arrays.var, hv], hv, hs⟩

theorem owns_some {a : DynArray} {b : Nat} : Owns (some a) b ↔ a.data = some b := by
  constructor
  · rintro ⟨_, h1, h2⟩; cases h1; exact h2
  · intro h; exact ⟨a, rfl, h⟩

theorem ArrayRep.next_free {s : Arrays α} {t : List (Slot α)} (r : ArrayRep s t) : s.heap.cell s.heap.next = none := by
  cases h : s.heap.cell s.heap.next with
  | none => rfl
  | some x => exact absurd (r.fresh s.heap.next (by rw [h]; simp)) (Nat.lt_irrefl _)

/-- A new block. -/
theorem ArrayRep.pushNew {s : Arrays α} {t : List (Slot α)} (r : ArrayRep s t) {xs : List (Option α)} {h' : Heap α}
    (hc : ∀ b, h'.cell b = if b = s.heap.next then some xs else s.heap.cell b) (hn : h'.next = s.heap.next + 1) :
    ArrayRep (s.push (h', { data := some s.heap.next, stop := some (s.heap.next, xs.length) })) (t ++ [.val xs]) := by
  have hfree := r.next_free
  apply r.push
  · exact .inr ⟨_, rfl, by rw [hc, if_pos rfl]⟩
  · intro b hb
    rw [hc, if_neg]
    rintro rfl; exact hb rfl
  · rintro b hb; cases hb; exact hfree
  · rintro b hb; cases hb; rw [hc, if_pos rfl]; simp
  · intro b hb
    rw [hc] at hb
    rw [hn]
    split at hb
    · omega
    · have := r.fresh b hb; omega

/-- The elements of a variable are replaced in place. -/
theorem ArrayRep.inPlace {s : Arrays α} {t : List (Slot α)} (r : ArrayRep s t) {i b : Nat} {xs ys : List (Option α)}
    (hv : s.vars[i]? = some (some { data := some b, stop := some (b, xs.length) })) (hb : s.heap.cell b = some xs)
    (hl : ys.length = xs.length) :
    ArrayRep { s with heap := s.heap.write b ys } (t.set i (.val ys)) := by
  have e : s.vars = s.vars.set i (some { data := some b, stop := some (b, ys.length) }) := by
    rw [hl]
    obtain ⟨hi, he⟩ := List.getElem?_eq_some_iff.1 hv
    rw [← he, List.set_getElem_self]
  have := r.set (i := i) (v' := some { data := some b, stop := some (b, ys.length) }) (sl' := .val ys) (h' := s.heap.write b ys) hv
    (.inr ⟨b, rfl, by simp [Heap.write]⟩)
    (by
      intro c h1 _
      have : c ≠ b := by rintro rfl; exact h1 (owns_some.2 rfl)
      simp [Heap.write, this])
    (by intro c hc; have h := owns_some.1 hc; exact .inl (owns_some.2 (by simpa using h)))
    (by intro c hc; have := owns_some.1 hc; cases this; simp [Heap.write])
    (by intro c hc _; have h := owns_some.1 hc; exact owns_some.2 (by simpa using h))
    (by
      intro c hc
      simp only [Heap.write] at hc ⊢
      split at hc
      · subst_vars; exact r.fresh _ (by rw [hb]; simp)
      · exact r.fresh c hc)
  rw [← e] at this
  exact this

/-- The one step that changes an owner. -/
theorem ArrayRep.move {s : Arrays α} {t : List (Slot α)} (r : ArrayRep s t) {j : Nat} {a : DynArray} {xs : List (Option α)}
    (hv : s.vars[j]? = some (some a)) (hs : SlotRel s.heap (some a) (.val xs)) :
    ArrayRep { s with vars := s.vars.set j (some { a with data := none }) ++ [some a] } (t.set j .moved ++ [.val xs]) := by
  have hj : j < s.vars.length := (List.getElem?_eq_some_iff.1 hv).1
  have hget : ∀ (k : Nat) w, (s.vars.set j (some { a with data := none }) ++ [some a])[k]? = some w →
      (k = s.vars.length ∧ w = some a) ∨ (k = j ∧ w = some { a with data := none }) ∨ (k ≠ j ∧ k < s.vars.length ∧ s.vars[k]? = some w) := by
    intro k w h
    rcases Nat.lt_trichotomy k s.vars.length with hk | hk | hk
    · rw [List.getElem?_append_left (by simpa using hk)] at h
      by_cases hkj : k = j
      · subst hkj
        rw [List.getElem?_set_self hj] at h
        cases h
        exact .inr (.inl ⟨rfl, rfl⟩)
      · rw [List.getElem?_set_ne (Ne.symm hkj)] at h
        exact .inr (.inr ⟨hkj, hk, h⟩)
    · subst hk
      rw [List.getElem?_append_right (by simp)] at h
      simp at h
      exact .inl ⟨rfl, h.symm⟩
    · rw [List.getElem?_eq_none (by simp; omega)] at h; cases h
  have hnone : ∀ b, ¬ Owns (some { a with data := none }) b := by
    intro b hb
    have := owns_some.1 hb
    cases this
  constructor
  · simp [r.len]
  · intro k w sl hw hsl
    rcases hget k w hw with ⟨rfl, rfl⟩ | ⟨rfl, rfl⟩ | ⟨hk, hlt, hw⟩
    · rw [r.len, List.getElem?_append_right (by simp)] at hsl
      simp at hsl
      subst hsl
      exact hs
    · rw [List.getElem?_append_left (by simpa [← r.len] using hj), List.getElem?_set_self (by simpa [← r.len] using hj)] at hsl
      cases hsl
      exact ⟨_, rfl, rfl⟩
    · rw [List.getElem?_append_left (by simpa [← r.len] using hlt), List.getElem?_set_ne (Ne.symm hk)] at hsl
      exact r.rel k w sl hw hsl
  · intro k l w x b hw hx hb hb'
    rcases hget k w hw with ⟨rfl, rfl⟩ | ⟨rfl, rfl⟩ | ⟨hk, hlt, hw⟩
    · rcases hget l x hx with ⟨rfl, rfl⟩ | ⟨rfl, rfl⟩ | ⟨hl, hlt, hx⟩
      · rfl
      · exact absurd hb' (hnone b)
      · exact absurd (r.one l j x (some a) b hx hv hb' hb) hl
    · exact absurd hb (hnone b)
    · rcases hget l x hx with ⟨rfl, rfl⟩ | ⟨rfl, rfl⟩ | ⟨hl, hlt, hx⟩
      · exact absurd (r.one k j w (some a) b hw hv hb hb') hk
      · exact absurd hb' (hnone b)
      · exact r.one k l w x b hw hx hb hb'
  · intro k w b hw hb
    rcases hget k w hw with ⟨rfl, rfl⟩ | ⟨rfl, rfl⟩ | ⟨hk, hlt, hw⟩
    · exact r.live j _ b hv hb
    · exact absurd hb (hnone b)
    · exact r.live k w b hw hb
  · exact r.fresh
  · intro b hb
    obtain ⟨k, w, hw, ho⟩ := r.owner b hb
    by_cases hk : k = j
    · subst hk
      rw [hv] at hw
      cases hw
      exact ⟨s.vars.length, some a, by show (s.vars.set k _ ++ [some a])[s.vars.length]? = _; simp, ho⟩
    · refine ⟨k, w, ?_, ho⟩
      show (s.vars.set j _ ++ [some a])[k]? = _
      rw [List.getElem?_append_left (by simpa using (List.getElem?_eq_some_iff.1 hw).1), List.getElem?_set_ne (Ne.symm hk)]
      exact hw

/-- The elements of an array are the same when another block is added or freed. -/
theorem elements_frame {h h' : Heap α} {a : DynArray} (hf : ∀ b, a.data = some b → h'.cell b = h.cell b) :
    a.elements h' = a.elements h := by
  unfold DynArray.elements
  cases hd : a.data with
  | none => rfl
  | some b => simp [hf b hd]

theorem copyInto_val {h : Heap α} {o : DynArray} {xs : List (Option α)} (h1 : o.elements h = .ok xs) (h2 : xs.all Option.isSome = true)
    (b : Nat) : o.copyInto h b = .ok (h.write b xs) := by
  unfold DynArray.copyInto
  rw [h1, Res.bind_ok, if_pos h2]

theorem ArrayRep.var {s : Arrays α} {t : List (Slot α)} (r : ArrayRep s t) {i : Nat} {sl : Slot α} (h : t[i]? = some sl)
    (hsl : sl ≠ .gone) : ∃ a, s.var i = .ok a ∧ s.vars[i]? = some (some a) := by
  obtain ⟨v, hv, hs⟩ := r.slot h
  obtain ⟨a, rfl⟩ : ∃ a, v = some a := by
    cases sl with
    | gone => exact absurd rfl hsl
    | moved => obtain ⟨a, rfl, _⟩ := hs; exact ⟨a, rfl⟩
    | val xs => rcases hs with ⟨rfl, _⟩ | ⟨b, rfl, _⟩ <;> exact ⟨_, rfl⟩
  exact ⟨a, by simp [Arrays.var, hv], hv⟩

theorem ArrayRep.assign {s : Arrays α} {t : List (Slot α)} (r : ArrayRep s t) (init : Option α) {i j : Nat} (hij : i ≠ j)
    {a : DynArray} (ha : s.vars[i]? = some (some a)) {xs : List (Option α)} (hx : wholeOf t j = .ok xs) :
    ∃ o q, s.var j = .ok o ∧ DynArray.assignFrom init s.heap a o = .ok q ∧
      ArrayRep { heap := q.1, vars := s.vars.set i (some q.2) } (t.set i (.val xs)) := by
  obtain ⟨h1, h2⟩ := wholeOf_ok hx
  obtain ⟨o, ho1, ho2, ho3⟩ := r.val (i := j) (xs := xs) (by simp [valOf, h1])
  obtain ⟨hsz, hel⟩ := val_size ho3
  have hne : ∀ b, o.data = some b → b ≠ s.heap.next ∧ a.data ≠ some b := by
    intro b hb
    constructor
    · rintro rfl
      exact r.live j _ _ ho2 (owns_some.2 hb) r.next_free
    · intro ha'
      exact hij (r.one i j _ _ b ha ho2 (owns_some.2 ha') (owns_some.2 hb))
  let h1' : Heap α := (s.heap.alloc (List.replicate xs.length init)).1.free a.data
  have hcell : ∀ b, h1'.cell b = if a.data = some b then none else if b = s.heap.next then some (List.replicate xs.length init) else
      s.heap.cell b := by
    intro b
    show (((s.heap.alloc (List.replicate xs.length init)).1.free a.data).cell b) = _
    cases hd : a.data with
    | none => simp [Heap.free, Heap.alloc]
    | some c =>
      by_cases hbc : b = c
      · simp [Heap.free, hbc]
      · have : ¬ c = b := fun h => hbc h.symm
        simp [Heap.free, Heap.alloc, hbc, this]
  have hel' : o.elements h1' = .ok xs := by
    rw [← hel]
    apply elements_frame
    intro b hb
    obtain ⟨e1, e2⟩ := hne b hb
    rw [hcell, if_neg e2, if_neg e1]
  have hanext : a.data ≠ some s.heap.next := by
    intro h
    exact r.live i _ _ ha (owns_some.2 h) r.next_free
  refine ⟨o, (h1'.write s.heap.next xs, { data := some s.heap.next, stop := some (s.heap.next, xs.length) }), ho1, ?_, ?_⟩
  · unfold DynArray.assignFrom
    simp only [hsz, Res.bind_ok]
    show (o.copyInto h1' s.heap.next >>= fun h => Res.ok (h, _)) = _
    rw [copyInto_val hel' h2, Res.bind_ok]
    rfl
  · have hw : ∀ b, (h1'.write s.heap.next xs).cell b = if b = s.heap.next then some xs else if a.data = some b then none else
        s.heap.cell b := by
      intro b
      show (if b = s.heap.next then some xs else h1'.cell b) = _
      by_cases hb : b = s.heap.next
      · simp [hb]
      · rw [if_neg hb, if_neg hb, hcell, if_neg hb]
    apply r.set ha
    · exact .inr ⟨_, rfl, by rw [hw, if_pos rfl]⟩
    · intro b e1 e2
      rw [owns_some] at e1 e2
      rw [hw, if_neg (by rintro rfl; exact e2 rfl), if_neg e1]
    · intro b hb
      have := owns_some.1 hb
      cases this
      exact .inr r.next_free
    · intro b hb
      have := owns_some.1 hb
      cases this
      rw [hw, if_pos rfl]; simp
    · intro b hb hb'
      rw [owns_some] at hb
      rw [hw, if_pos hb] at hb'
      split at hb'
      · subst_vars; exact owns_some.2 rfl
      · exact absurd rfl hb'
    · intro b hb
      have hn : (h1'.write s.heap.next xs).next = s.heap.next + 1 := by
        show h1'.next = _
        show ((s.heap.alloc (List.replicate xs.length init)).1.free a.data).next = _
        cases a.data <;> rfl
      rw [hn]
      rw [hw] at hb
      split at hb
      · omega
      · split at hb
        · exact absurd rfl hb
        · have := r.fresh b hb; omega

theorem ArrayRep.destroy {s : Arrays α} {t : List (Slot α)} (r : ArrayRep s t) {i : Nat} {a : DynArray}
    (ha : s.vars[i]? = some (some a)) :
    ArrayRep { heap := s.heap.free a.data, vars := s.vars.set i none } (t.set i .gone) := by
  have hcell : ∀ b, (s.heap.free a.data).cell b = if a.data = some b then none else s.heap.cell b := by
    intro b
    cases hd : a.data with
    | none => simp [Heap.free]
    | some c =>
      by_cases hbc : b = c
      · simp [Heap.free, hbc]
      · have : ¬ c = b := fun h => hbc h.symm
        simp [Heap.free, hbc, this]
  have hno : ∀ b, ¬ Owns none b := by rintro b ⟨_, h, _⟩; cases h
  apply r.set ha
  · rfl
  · intro b h1 _
    rw [owns_some] at h1
    rw [hcell, if_neg h1]
  · intro b hb; exact absurd hb (hno b)
  · intro b hb; exact absurd hb (hno b)
  · intro b h1 h2
    rw [owns_some] at h1
    rw [hcell, if_pos h1] at h2
    exact absurd rfl h2
  · intro b hb
    have hn : (s.heap.free a.data).next = s.heap.next := by cases a.data <;> rfl
    rw [hn]
    rw [hcell] at hb
    split at hb
    · exact absurd rfl hb
    · exact r.fresh b hb

theorem ArrayRep.put {s : Arrays α} {t : List (Slot α)} (r : ArrayRep s t) {i k : Nat} {v : α} {a : DynArray} {xs : List (Option α)}
    (hv : s.vars[i]? = some (some a)) (hs : SlotRel s.heap (some a) (.val xs)) (hk : k < xs.length) :
    ∃ h, a.set s.heap k v = .ok h ∧ ArrayRep { s with heap := h } (t.set i (.val (xs.set k (some v)))) := by
  rcases hs with ⟨_, rfl⟩ | ⟨b, h1, hb⟩
  · simp at hk
  · cases h1
    refine ⟨s.heap.write b (xs.set k (some v)), ?_, r.inPlace hv hb (by simp)⟩
    simp [DynArray.set, hb, hk]

theorem ArrayRep.step {s : Arrays α} {t : List (Slot α)} (r : ArrayRep s t) (init : Option α) (op : ArrayOp α) :
    (∀ t', valueStep init t op = .ok t' → ∃ s', s.step init op = .ok s' ∧ ArrayRep s' t') ∧
    (∀ e, valueStep init t op = .throws e → s.step init op = .throws e) ∧ valueStep init t op ≠ .diverges := by
  have hval : ∀ i, valOf t i = .ub ∨ ∃ xs, valOf t i = .ok xs := by
    intro i
    unfold valOf
    split
    · exact .inr ⟨_, rfl⟩
    · exact .inl rfl
  have hwhole : ∀ i, wholeOf t i = .ub ∨ ∃ xs, wholeOf t i = .ok xs := by
    intro i
    unfold wholeOf
    rcases hval i with h | ⟨xs, h⟩
    · rw [h]; exact .inl rfl
    · rw [h, Res.bind_ok]
      split
      · exact .inr ⟨_, rfl⟩
      · exact .inl rfl
  cases op with
  | empty =>
    refine ⟨?_, ?_, ?_⟩
    · rintro t' h
      cases h
      refine ⟨_, rfl, r.push (.inl ⟨rfl, rfl⟩) ?_ ?_ ?_ r.fresh⟩
      · intro b _; rfl
      · intro b h; cases h
      · intro b h; cases h
    · intro e h; cases h
    · intro h; cases h
  | make n =>
    refine ⟨?_, ?_, ?_⟩
    · rintro t' h
      cases h
      refine ⟨_, rfl, ?_⟩
      have := r.pushNew (xs := List.replicate n init) (h' := (s.heap.alloc (List.replicate n init)).1) (fun b => rfl) rfl
      simpa [DynArray.make, Heap.alloc] using this
    · intro e h; cases h
    · intro h; cases h
  | makeFilled n v =>
    refine ⟨?_, ?_, ?_⟩
    · rintro t' h
      cases h
      have hc : ∀ b, ((s.heap.alloc (List.replicate n init)).1.write s.heap.next (List.replicate n (some v))).cell b =
          if b = s.heap.next then some (List.replicate n (some v)) else s.heap.cell b := by
        intro b
        by_cases hb : b = s.heap.next <;> simp [Heap.write, Heap.alloc, hb]
      have h := r.pushNew hc rfl
      refine ⟨_, ?_, h⟩
      simp [Arrays.step, DynArray.makeFilled, DynArray.make, DynArray.fill, DynArray.elements, DynArray.size, Heap.alloc]
    · intro e h; cases h
    · intro h; cases h
  | copyOf j =>
    simp only [valueStep]
    rcases hwhole j with h | ⟨xs, h⟩
    · rw [h]; simp
    · rw [h]
      refine ⟨?_, by simp, by simp⟩
      rintro t' ht
      cases ht
      obtain ⟨h1, h2⟩ := wholeOf_ok h
      obtain ⟨o, ho1, ho2, ho3⟩ := r.val (i := j) (xs := xs) (by simp [valOf, h1])
      obtain ⟨hsz, hel⟩ := val_size ho3
      have hel' : o.elements (s.heap.alloc (List.replicate xs.length init)).1 = .ok xs := by
        rw [← hel]
        apply elements_frame
        intro b hb
        show (if b = s.heap.next then _ else _) = _
        rw [if_neg]
        rintro rfl
        exact r.live j _ _ ho2 (owns_some.2 hb) r.next_free
      have hc : ∀ b, ((s.heap.alloc (List.replicate xs.length init)).1.write s.heap.next xs).cell b =
          if b = s.heap.next then some xs else s.heap.cell b := by
        intro b
        by_cases hb : b = s.heap.next <;> simp [Heap.write, Heap.alloc, hb]
      have hp := r.pushNew hc rfl
      refine ⟨_, ?_, hp⟩
      unfold Arrays.step DynArray.copyOf
      simp only [ho1, hsz, Res.bind_ok]
      rw [copyInto_val hel' h2]
      rfl
  | moveOf j =>
    simp only [valueStep]
    rcases hval j with h | ⟨xs, h⟩
    · rw [h]; simp
    · rw [h]
      refine ⟨?_, by simp, by simp⟩
      rintro t' ht
      cases ht
      obtain ⟨o, ho1, ho2, ho3⟩ := r.val h
      refine ⟨_, ?_, r.move ho2 ho3⟩
      simp [Arrays.step, ho1, DynArray.moveOf]
  | assign i j =>
    simp only [valueStep]
    cases hi : t[i]? with
    | none => simp
    | some sl =>
      cases sl with
      | gone => simp
      | moved =>
        simp only
        by_cases hij : i = j
        · simp [hij]
        · rw [if_neg hij]
          rcases hwhole j with h | ⟨xs, h⟩
          · rw [h]; simp
          · rw [h]
            refine ⟨?_, by simp, by simp⟩
            rintro t' ht
            cases ht
            obtain ⟨a, ha1, ha2⟩ := r.var hi (by simp)
            obtain ⟨o, q, h1, h2, h3⟩ := r.assign init hij ha2 h
            refine ⟨_, ?_, h3⟩
            simp only [Arrays.step, ha1, h1, Res.bind_ok, if_neg hij, h2]
      | val ys =>
        simp only
        by_cases hij : i = j
        · simp [hij]
        · rw [if_neg hij]
          rcases hwhole j with h | ⟨xs, h⟩
          · rw [h]; simp
          · rw [h]
            refine ⟨?_, by simp, by simp⟩
            rintro t' ht
            cases ht
            obtain ⟨a, ha1, ha2⟩ := r.var hi (by simp)
            obtain ⟨o, q, h1, h2, h3⟩ := r.assign init hij ha2 h
            refine ⟨_, ?_, h3⟩
            simp only [Arrays.step, ha1, h1, Res.bind_ok, if_neg hij, h2]
  | set i k v =>
    simp only [valueStep]
    rcases hval i with h | ⟨xs, h⟩
    · rw [h]; simp
    · rw [h, Res.bind_ok]
      split
      · rename_i hk
        refine ⟨?_, by simp, by simp⟩
        rintro t' ht
        cases ht
        obtain ⟨a, ha1, ha2, ha3⟩ := r.val h
        obtain ⟨h', e1, e2⟩ := r.put ha2 ha3 hk (v := v)
        exact ⟨_, by simp only [Arrays.step, ha1, Res.bind_ok, e1], e2⟩
      · simp
  | setAt i k v =>
    simp only [valueStep]
    rcases hval i with h | ⟨xs, h⟩
    · rw [h]; simp
    · rw [h, Res.bind_ok]
      obtain ⟨a, ha1, ha2, ha3⟩ := r.val h
      obtain ⟨hsz, _⟩ := val_size ha3
      split
      · rename_i hk
        refine ⟨?_, by simp, by simp⟩
        rintro t' ht
        cases ht
        obtain ⟨h', e1, e2⟩ := r.put ha2 ha3 hk (v := v)
        refine ⟨_, ?_, e2⟩
        simp only [Arrays.step, ha1, Res.bind_ok, DynArray.set', hsz, if_neg (Nat.not_le.2 hk), e1]
      · rename_i hk
        refine ⟨by simp, ?_, by simp⟩
        rintro e he
        cases he
        simp only [Arrays.step, ha1, Res.bind_ok, DynArray.set', hsz, if_pos (Nat.not_lt.1 hk), Res.bind_throws]
  | fill i v =>
    simp only [valueStep]
    rcases hval i with h | ⟨xs, h⟩
    · rw [h]; simp
    · rw [h]
      refine ⟨?_, by simp, by simp⟩
      rintro t' ht
      cases ht
      obtain ⟨a, ha1, ha2, ha3⟩ := r.val h
      obtain ⟨hsz, hel⟩ := val_size ha3
      rcases ha3 with ⟨hh, rfl⟩ | ⟨b, hh, hb⟩
      · cases hh
        refine ⟨s, ?_, ?_⟩
        · simp only [Arrays.step, ha1, Res.bind_ok, DynArray.fill, hel]
        · have hi := valOf_ok h
          obtain ⟨h1, h2⟩ := List.getElem?_eq_some_iff.1 hi
          have : t.set i (.val (List.map (fun _ : Option α => some v) [])) = t := by
            show t.set i (.val []) = t
            rw [← h2, List.set_getElem_self]
          rw [this]
          exact r
      · cases hh
        refine ⟨_, ?_, r.inPlace ha2 hb (ys := xs.map fun _ => some v) (by simp)⟩
        simp only [Arrays.step, ha1, Res.bind_ok, DynArray.fill, hel]
  | destroy i =>
    simp only [valueStep]
    cases hi : t[i]? with
    | none => simp
    | some sl =>
      cases sl with
      | gone => simp
      | moved =>
        refine ⟨?_, by simp, by simp⟩
        rintro t' ht
        cases ht
        obtain ⟨a, ha1, ha2⟩ := r.var hi (by simp)
        exact ⟨_, by simp only [Arrays.step, ha1, Res.bind_ok], r.destroy ha2⟩
      | val ys =>
        refine ⟨?_, by simp, by simp⟩
        rintro t' ht
        cases ht
        obtain ⟨a, ha1, ha2⟩ := r.var hi (by simp)
        exact ⟨_, by simp only [Arrays.step, ha1, Res.bind_ok], r.destroy ha2⟩

theorem ArrayRep.run {s : Arrays α} {t t' : List (Slot α)} (r : ArrayRep s t) (init : Option α) (ops : List (ArrayOp α))
    (h : valueRun init t ops = .ok t') : ∃ s', s.run init ops = .ok s' ∧ ArrayRep s' t' := by
  induction ops generalizing s t with
  | nil => cases h; exact ⟨s, rfl, r⟩
  | cons op ops ih =>
    obtain ⟨h1, h2, h3⟩ := r.step init op
    unfold valueRun at h
    unfold Arrays.run
    cases hs : valueStep init t op with
    | ok t1 =>
      obtain ⟨s1, e1, r1⟩ := h1 t1 hs
      rw [hs] at h
      rw [e1]
      exact ih r1 h
    | throws e =>
      rw [hs] at h
      rw [h2 e hs]
      exact ih r h
    | ub => rw [hs] at h; cases h
    | diverges => exact absurd hs h3

/-- Whatever is done with arrays (other than what plain values do not allow, either), every variable holds what it would hold if
arrays were plain values that are never shared; indexing with `at` gives the element or throws. -/
theorem C93_history (init : Option α) (ops : List (ArrayOp α)) (t : List (Slot α)) (h : valueRun init [] ops = .ok t) :
    ∃ s, Arrays.run init {} ops = .ok s ∧ s.vars.length = t.length ∧
      ∀ i xs, t[i]? = some (.val xs) → ∃ a, s.var i = .ok a ∧ a.size = .ok xs.length ∧ a.elements s.heap = .ok xs ∧
        (∀ k x, xs[k]? = some (some x) → a.get s.heap k = .ok x ∧ a.get' s.heap k = .ok x) ∧
        (∀ k, xs.length ≤ k → a.get' s.heap k = .throws .flutError) := by
  obtain ⟨s, hs, r⟩ := arrayRep_nil.run init ops h
  refine ⟨s, hs, r.len, fun i xs hi => ?_⟩
  obtain ⟨a, h1, h2, h3⟩ := r.val (i := i) (xs := xs) (by simp [valOf, hi])
  obtain ⟨h4, h5⟩ := val_size h3
  have hget : ∀ k x, xs[k]? = some (some x) → a.get s.heap k = .ok x := by
    intro k x hk
    rcases h3 with ⟨_, rfl⟩ | ⟨b, hh, hb⟩
    · simp at hk
    · cases hh
      simp [DynArray.get, hb, hk]
  refine ⟨a, h1, h4, h5, fun k x hk => ⟨hget k x hk, ?_⟩, fun k hk => ?_⟩
  · have hlt := (List.getElem?_eq_some_iff.1 hk).1
    simp only [DynArray.get', h4, Res.bind_ok, if_neg (Nat.not_le.2 hlt), hget k x hk]
  · simp only [DynArray.get', h4, Res.bind_ok, if_pos hk]

/-- No block is freed twice, used after it was freed, or lost: at any time the allocated blocks are those that exactly one of the
arrays alive owns. -/
theorem C93_ownership (init : Option α) (ops : List (ArrayOp α)) (t : List (Slot α)) (h : valueRun init [] ops = .ok t) :
    ∃ s, Arrays.run init {} ops = .ok s ∧
      ∀ b, s.heap.cell b ≠ none ↔ ∃ i : Nat, (∃ a, s.vars[i]? = some (some a) ∧ a.data = some b) ∧
        ∀ (j : Nat) a, s.vars[j]? = some (some a) → a.data = some b → j = i := by
  obtain ⟨s, hs, r⟩ := arrayRep_nil.run init ops h
  refine ⟨s, hs, fun b => ⟨fun hb => ?_, ?_⟩⟩
  · obtain ⟨i, v, hv, ho⟩ := r.owner b hb
    obtain ⟨a, rfl, ha⟩ := ho
    exact ⟨i, ⟨a, hv, ha⟩, fun j a' hj ha' => r.one j i _ _ b hj hv (owns_some.2 ha') (owns_some.2 ha)⟩
  · rintro ⟨i, ⟨a, hv, ha⟩, _⟩
    exact r.live i _ b hv (owns_some.2 ha)

/-- An array that something was moved out of cannot even be asked for its size, unless it never had elements to begin with. -/
theorem C93_moved_refuted (a : DynArray) (b n : Nat) (h : a = { data := some b, stop := some (b, n) }) :
    (DynArray.moveOf a).2.size = .ub ∧ ∀ heap : Heap α, (DynArray.moveOf a).2.elements heap = .ub := by
  subst h
  exact ⟨rfl, fun _ => rfl⟩

/-- Assigning an array to itself is undefined. -/
theorem C93_self_refuted (init : Option α) (h : Heap α) (a : DynArray) (hfresh : ∀ b, h.cell b ≠ none → b < h.next)
    (hlive : ∀ b, a.data = some b → h.cell b ≠ none) : a.assignSelf init h = .ub := by
  unfold DynArray.assignSelf
  cases ha : a.size with
  | ok n =>
    obtain ⟨d, st⟩ := a
    simp only [Res.bind_ok, Heap.alloc]
    cases d with
    | none =>
      cases st with
      | none => rfl
      | some q => simp [DynArray.size] at ha
    | some b =>
      cases st with
      | none => simp [DynArray.size] at ha
      | some q =>
        obtain ⟨c, k⟩ := q
        have hb := hfresh b (hlive b rfl)
        simp only [DynArray.size] at ha
        split at ha
        · subst_vars
          have hne : ¬ h.next = c := by omega
          simp [DynArray.size, hne]
        · cases ha
  | throws e =>
    obtain ⟨d, st⟩ := a
    cases d <;> cases st <;> simp [DynArray.size] at ha
    split at ha <;> cases ha
  | ub => rfl
  | diverges =>
    obtain ⟨d, st⟩ := a
    cases d <;> cases st <;> simp [DynArray.size] at ha
    split at ha <;> cases ha

/-- A history with copies, moves, writes, and an index out of range. -/
def arrayExample : List (ArrayOp Nat) :=
  [.makeFilled 3 7, .copyOf 0, .set 0 1 5, .setAt 1 3 9, .moveOf 0, .empty, .assign 0 1, .fill 1 2, .destroy 2, .assign 3 0]

example : (match valueRun none [] arrayExample with
    | .ok [.val [some 7, some 7, some 7], .val [some 2, some 2, some 2], .gone, .val [some 7, some 7, some 7]] => True
    | _ => False) := by
  simp [arrayExample, valueRun, valueStep, valOf, wholeOf, List.replicate]

/-! ## `clone` -/

/-- `clone` of a vector of pointers to objects: new objects with the same values in the same order, one for each; everything
that was there before is still there and unchanged. -/
theorem C94_clone (h : Heap α) (hfresh : ∀ b, h.cell b ≠ none → b < h.next) (ps : List (Option Nat)) (xs : List α)
    (hps : ps.map (fun p => p.bind h.cell) = xs.map fun x => some [some x]) :
    ∃ h' qs, cloneAll h ps = .ok (h', qs) ∧ qs.map (fun q => q.bind h'.cell) = xs.map (fun x => some [some x]) ∧
      qs.Nodup ∧ (∀ q ∈ qs, q.bind h.cell = none) ∧ (∀ b, h.cell b ≠ none → h'.cell b = h.cell b) ∧
      (∀ b, h'.cell b ≠ none → h.cell b ≠ none ∨ some b ∈ qs) := by
  have key : ∀ (ps : List (Option Nat)) (xs : List α) (h : Heap α), (∀ b, h.cell b ≠ none → b < h.next) →
      ps.map (fun p => p.bind h.cell) = xs.map (fun x => some [some x]) →
      ∃ h' qs, cloneAll h ps = .ok (h', qs) ∧ qs.map (fun q => q.bind h'.cell) = xs.map (fun x => some [some x]) ∧
      qs.Nodup ∧ (∀ q ∈ qs, ∃ b, q = some b ∧ h.next ≤ b) ∧ (∀ b, h.cell b ≠ none → h'.cell b = h.cell b) ∧
      (∀ b, h'.cell b ≠ none → h.cell b ≠ none ∨ some b ∈ qs) := by
    intro ps
    induction ps with
    | nil =>
      intro xs h _ hx
      cases xs with
      | nil => exact ⟨h, [], rfl, rfl, List.nodup_nil, by simp, fun _ _ => rfl, fun b hb => .inl hb⟩
      | cons x xs => simp at hx
    | cons p ps ih =>
      intro xs h hf hx
      cases xs with
      | nil => simp at hx
      | cons x xs =>
        simp only [List.map_cons, List.cons.injEq] at hx
        obtain ⟨hp, hps⟩ := hx
        have hcell : ∀ b, (h.alloc [some x]).1.cell b = if b = h.next then some [some x] else h.cell b := fun _ => rfl
        have hf1 : ∀ b, (h.alloc [some x]).1.cell b ≠ none → b < (h.alloc [some x]).1.next := by
          intro b hb
          show b < h.next + 1
          rw [hcell] at hb
          split at hb
          · omega
          · have := hf b hb; omega
        have hkeep : ∀ b, h.cell b ≠ none → (h.alloc [some x]).1.cell b = h.cell b := by
          intro b hb
          rw [hcell, if_neg]
          have := hf b hb; omega
        have hps1 : ps.map (fun p => p.bind (h.alloc [some x]).1.cell) = xs.map fun x => some [some x] := by
          rw [← hps]
          apply List.map_congr_left
          intro q hq
          have hne : q.bind h.cell ≠ none := by
            have : q.bind h.cell ∈ ps.map (fun p => p.bind h.cell) := List.mem_map_of_mem hq
            rw [hps] at this
            obtain ⟨y, _, hy⟩ := List.mem_map.1 this
            rw [← hy]; simp
          cases q with
          | none => rfl
          | some b => exact hkeep b hne
        obtain ⟨h', qs, e1, e2, e3, e4, e5, e6⟩ := ih xs _ hf1 hps1
        have hnew : h'.cell h.next = some [some x] := by
          have hc : (h.alloc [some x]).1.cell h.next = some [some x] := by rw [hcell, if_pos rfl]
          rw [e5 h.next (by rw [hc]; simp), hc]
        refine ⟨h', some h.next :: qs, ?_, ?_, ?_, ?_, ?_, ?_⟩
        · unfold cloneAll clone
          rw [hp]
          simp only [Res.bind_ok]
          rw [e1]
          rfl
        · simp [e2, hnew]
        · rw [List.nodup_cons]
          refine ⟨fun hm => ?_, e3⟩
          obtain ⟨b, hb1, hb2⟩ := e4 _ hm
          cases hb1
          have : h.next + 1 ≤ h.next := hb2
          omega
        · intro q hq
          rcases List.mem_cons.1 hq with rfl | hq
          · exact ⟨_, rfl, Nat.le_refl _⟩
          · obtain ⟨b, hb1, hb2⟩ := e4 q hq
            have : h.next + 1 ≤ b := hb2
            exact ⟨b, hb1, by omega⟩
        · intro b hb
          rw [e5 b (by rw [hkeep b hb]; exact hb), hkeep b hb]
        · intro b hb
          rcases e6 b hb with hb | hb
          · rw [hcell] at hb
            split at hb
            · subst_vars; exact .inr (by simp)
            · exact .inl hb
          · exact .inr (List.mem_cons_of_mem _ hb)
  obtain ⟨h', qs, e1, e2, e3, e4, e5, e6⟩ := key ps xs h hfresh hps
  refine ⟨h', qs, e1, e2, e3, fun q hq => ?_, e5, e6⟩
  obtain ⟨b, rfl, hb⟩ := e4 q hq
  cases hc : h.cell b with
  | none => exact hc
  | some y =>
    have := hfresh b (by rw [hc]; simp)
    omega

/-- A null pointer among them is dereferenced. -/
theorem C94_null_refuted : cloneAll ({} : Heap Nat) [none] = .ub := rfl

example : ∃ h : Heap Nat, (∀ b, h.cell b ≠ none → b < h.next) ∧
    [some 0, some 1].map (fun p : Option Nat => p.bind h.cell) = [5, 6].map fun x => some [some x] := by
  refine ⟨((({} : Heap Nat).alloc [some 5]).1.alloc [some 6]).1, ?_, rfl⟩
  intro b hb
  match b with
  | 0 => decide
  | 1 => decide
  | b + 2 => exact absurd rfl hb

end Flut
