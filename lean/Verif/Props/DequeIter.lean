import Verif.Model.DequeIter
import Verif.Props.Containers

/-!
# C143: iterators of a `circular_deque`
-/

namespace Flut

namespace DequeSpec

variable {α : Type}

/-- Where the element at place `i` of a queue of `n` is after an operation, if it is still there. -/
def place : CDeque.Op α → Nat → Nat → Option Nat
  | .pushBack _, _, i => some i
  | .pushFront _, _, i => some (i + 1)
  | .popBack, n, i => if i + 1 < n then some i else none
  | .popFront, _, i => if i = 0 then none else some (i - 1)
  | .clear, _, _ => none

/-- The same after a history. -/
def places : List (CDeque.Op α) → List α → Nat → Option Nat
  | [], _, i => some i
  | op :: ops, l, i =>
    match step op l, place op l.length i with
    | some l', some i' => places ops l' i'
    | _, _ => none

end DequeSpec

namespace CDeque

variable {α : Type}

/-- A sensible size. -/
theorem plusIt_eq (it v : Nat) (h : it + v < 2 ^ 64) : plusIt it v = it + v := by
  unfold plusIt
  rw [← Int.natCast_add, show ((2 : Int) ^ 64) = ((2 ^ 64 : Nat) : Int) by norm_cast, ← Int.natCast_emod, Int.toNat_natCast, Nat.mod_eq_of_lt h]

theorem loadIt_rep {d : CDeque α} {l : List α} (h : Rep d l) (it i : Nat) (hi : i < l.length) (hit : it % d.buffer.length = (d.front + i) % d.buffer.length) :
    d.loadIt it = .ok l[i] := by
  have hle := h.le
  have := h.elem i hi
  unfold loadIt modC
  rw [if_neg (by omega)]
  simp only [Res.bind_ok, bufGet]
  rw [hit, this, List.getElem?_eq_getElem hi]

theorem rep_runAll_ok {ops : List (Op α)} {d d' : CDeque α} {l l' : List α} (h : Rep d l) (hs : DequeSpec.run ops l = some l') (hr : runAll ops d = .ok d') :
    Rep d' l' := by
  rcases rep_runAll ops d l l' h hs with h1 | ⟨d1, h1, h2⟩
  · rw [hr] at h1; cases h1
  · rw [hr] at h1
    cases h1
    exact h2

theorem length_le_insertIdx (l : List α) (i : Nat) (v : α) : l.length ≤ (l.insertIdx i v).length := by
  rw [List.length_insertIdx]
  split <;> omega

theorem run_buffer_le {op : Op α} {d d' : CDeque α} (h : d.run op = .ok d') : d.buffer.length ≤ d'.buffer.length := by
  cases op with
  | pushBack v =>
    change d.pushBack v = _ at h
    rw [pushBack_eq] at h
    split at h
    · unfold bufInsert at h
      split at h <;> cases h
      exact length_le_insertIdx _ _ _
    · obtain ⟨i, -, h⟩ := Res.bind_eq_ok.1 h
      unfold bufSet at h
      split at h <;> cases h
      simp
  | pushFront v =>
    change d.pushFront v = _ at h
    rw [pushFront_eq] at h
    split at h
    · unfold bufInsert at h
      split at h <;> cases h
      exact length_le_insertIdx _ _ _
    · obtain ⟨i, -, h⟩ := Res.bind_eq_ok.1 h
      unfold bufSet at h
      split at h <;> cases h
      simp
  | popBack =>
    change d.popBack = _ at h
    unfold popBack at h
    split at h <;> cases h
    exact Nat.le_refl _
  | popFront =>
    change d.popFront = _ at h
    rw [popFront_eq] at h
    split at h
    · obtain ⟨i, -, h⟩ := Res.bind_eq_ok.1 h
      cases h
      exact Nat.le_refl _
    · cases h
  | clear => cases h; exact Nat.le_refl _

theorem runAll_buffer_le (ops : List (Op α)) : ∀ {d d' : CDeque α}, runAll ops d = .ok d' → d.buffer.length ≤ d'.buffer.length := by
  induction ops with
  | nil => intro d d' h; cases h; exact Nat.le_refl _
  | cons op ops ih =>
    intro d d' h
    rw [runAll] at h
    obtain ⟨d1, h1, h2⟩ := Res.bind_eq_ok.1 h
    exact Nat.le_trans (run_buffer_le h1) (ih h2)

/-- The place in the buffer of an element that stays does not change. -/
theorem run_slot {op : Op α} {d d' : CDeque α} {l : List α} (h : Rep d l) (hr : d.run op = .ok d') (hcap : d'.buffer.length = d.buffer.length) {i i' : Nat} (hi : i < l.length)
    (hp : DequeSpec.place op l.length i = some i') : (d'.front + i') % d'.buffer.length = (d.front + i) % d.buffer.length := by
  have hpos : 0 < d.buffer.length := Nat.lt_of_lt_of_le (by omega) h.le
  rw [hcap]
  cases op with
  | pushBack v =>
    cases hp
    change d.pushBack v = _ at hr
    rw [pushBack_eq] at hr
    split at hr
    · unfold bufInsert at hr
      split at hr <;> cases hr
      rfl
    · obtain ⟨j, -, hr⟩ := Res.bind_eq_ok.1 hr
      unfold bufSet at hr
      split at hr <;> cases hr
      rfl
  | pushFront v =>
    cases hp
    change d.pushFront v = _ at hr
    rw [pushFront_eq] at hr
    split at hr
    · exfalso
      unfold bufInsert at hr
      split at hr <;> cases hr
      rename_i h1
      simp only at hcap h1
      rw [List.length_insertIdx, if_pos h1] at hcap
      omega
    · obtain ⟨j, h1, hr⟩ := Res.bind_eq_ok.1 hr
      unfold bufSet at hr
      split at hr <;> cases hr
      rw [modC_pos _ _ hpos] at h1
      cases h1
      simp only
      rw [Nat.mod_add_mod, show d.front + d.buffer.length - 1 + (i + 1) = d.front + i + d.buffer.length by omega, Nat.add_mod_right]
  | popBack =>
    simp only [DequeSpec.place] at hp
    split at hp <;> cases hp
    change d.popBack = _ at hr
    unfold popBack at hr
    split at hr <;> cases hr
    rfl
  | popFront =>
    simp only [DequeSpec.place] at hp
    split at hp <;> cases hp
    change d.popFront = _ at hr
    rw [popFront_eq] at hr
    split at hr
    · obtain ⟨j, h1, hr⟩ := Res.bind_eq_ok.1 hr
      cases hr
      rw [modC_pos _ _ hpos] at h1
      cases h1
      simp only
      rw [Nat.mod_add_mod, show d.front + 1 + (i - 1) = d.front + i by omega]
    · cases hr
  | clear => cases hp

theorem place_lt {op : Op α} {l l' : List α} {i i' : Nat} (hi : i < l.length) (hs : DequeSpec.step op l = some l') (hp : DequeSpec.place op l.length i = some i') : i' < l'.length := by
  cases op with
  | pushBack v => cases hp; cases hs; simp; omega
  | pushFront v => cases hp; cases hs; simp; omega
  | popBack =>
    simp only [DequeSpec.place] at hp
    split at hp <;> cases hp
    cases l with
    | nil => cases hs
    | cons x l => simp only [DequeSpec.step] at hs; cases hs; simp at *; omega
  | popFront =>
    simp only [DequeSpec.place] at hp
    split at hp <;> cases hp
    cases l with
    | nil => cases hs
    | cons x l => cases hs; simp at *; omega
  | clear => cases hp

theorem runAll_slot (ops : List (Op α)) : ∀ {d d' : CDeque α} {l l' : List α}, Rep d l → DequeSpec.run ops l = some l' → runAll ops d = .ok d' →
    d'.buffer.length = d.buffer.length → ∀ {i i' : Nat}, i < l.length → DequeSpec.places ops l i = some i' →
    i' < l'.length ∧ (d'.front + i') % d'.buffer.length = (d.front + i) % d.buffer.length := by
  induction ops with
  | nil => intro d d' l l' h hs hr _ i i' hi hp; cases hs; cases hr; cases hp; exact ⟨hi, rfl⟩
  | cons op ops ih =>
    intro d d' l l' h hs hr hcap i i' hi hp
    rw [runAll] at hr
    obtain ⟨d1, h1, h2⟩ := Res.bind_eq_ok.1 hr
    simp only [DequeSpec.run] at hs
    cases h3 : DequeSpec.step op l with
    | none => rw [h3] at hs; cases hs
    | some l1 =>
      rw [h3] at hs
      simp only [Option.bind_some] at hs
      simp only [DequeSpec.places, h3] at hp
      cases h4 : DequeSpec.place op l.length i with
      | none => rw [h4] at hp; cases hp
      | some i1 =>
        rw [h4] at hp
        have e1 := run_buffer_le h1
        have e2 := runAll_buffer_le ops h2
        have hrep : Rep d1 l1 := rep_runAll_ok (ops := [op]) h (by simp [DequeSpec.run, h3]) (by simp only [runAll, h1, Res.bind_ok])
        obtain ⟨h5, h6⟩ := ih hrep hs h2 (by omega) (place_lt hi h3 h4) hp
        exact ⟨h5, by rw [h6, run_slot h h1 (by omega) hi h4]⟩

end CDeque

open CDeque

variable {α : Type}

/-- C143. After any history, the iterators from `begin()` to `end()` are as many as there are elements, and the one at distance `i` from `begin()` reads and writes element `i`. -/
theorem C143_iterators (dflt : α) (cap : Nat) (ops : List (CDeque.Op α)) (l : List α) (d : CDeque α) (hs : DequeSpec.run ops [] = some l)
    (hr : CDeque.runAll ops (CDeque.new dflt cap) = .ok d) (hbig : d.capacity < 2 ^ 62) :
    diffIt d.endIt d.beginIt = l.length ∧
    (∀ i ≤ l.length, diffIt (plusIt d.beginIt i) d.beginIt = i ∧ (sameIt (plusIt d.beginIt i) d.endIt = true ↔ i = l.length) ∧
      incIt (plusIt d.beginIt i) = plusIt d.beginIt (i + 1) ∧ plusIt (plusIt d.beginIt i) (-i) = d.beginIt) ∧
    ∀ i (h : i < l.length), d.loadIt (plusIt d.beginIt i) = .ok l[i] ∧
      ∀ v, ∃ d', d.storeIt (plusIt d.beginIt i) v = .ok d' ∧ DequeShows d' (l.set i v) := by
  have h := rep_runAll_ok (rep_new dflt cap) hs hr
  have hle := h.le
  have hsz := h.size
  have hf := h.front
  change d.buffer.length < 2 ^ 62 at hbig
  have hend : d.endIt = d.front + l.length := by
    unfold endIt
    rw [hsz, Nat.mod_eq_of_lt (by omega)]
  have hplus : ∀ i : Nat, i ≤ l.length + 1 → plusIt d.beginIt i = d.front + i := fun i hi => plusIt_eq _ _ (by unfold beginIt; omega)
  refine ⟨?_, ?_, ?_⟩
  · rw [hend]
    unfold diffIt beginIt
    rw [show ((d.front + l.length : Nat) : Int) - d.front = l.length by omega, Int.bmod_eq_of_le] <;> omega
  · intro i hi
    rw [hplus i (by omega), hend]
    refine ⟨?_, ?_, ?_, ?_⟩
    · unfold diffIt beginIt
      rw [show ((d.front + i : Nat) : Int) - d.front = i by omega, Int.bmod_eq_of_le] <;> omega
    · simp [sameIt]
      omega
    · rw [show ((i : Int) + 1) = ((i + 1 : Nat) : Int) from rfl, hplus (i + 1) (by omega)]
      unfold incIt
      rw [Nat.mod_eq_of_lt (by omega)]
      omega
    · unfold plusIt beginIt
      rw [Int.natCast_add, Int.add_neg_cancel_right, Int.emod_eq_of_lt (by omega) (by omega)]
      rfl
  · intro i hi
    rw [hplus i (by omega)]
    refine ⟨loadIt_rep h _ i hi rfl, fun v => ?_⟩
    have hpos : 0 < d.buffer.length := by omega
    have hlt := Nat.mod_lt (d.front + i) hpos
    refine ⟨{ d with buffer := d.buffer.set ((d.front + i) % d.buffer.length) v }, ?_, ?_⟩
    · unfold storeIt
      rw [modC_pos _ _ hpos]
      simp only [Res.bind_ok, bufSet, if_pos hlt]
    · refine Rep.shows ⟨by simp [hsz], by simp [hle], by simpa using hf, ?_⟩
      intro j hj
      simp only [List.length_set] at hj ⊢
      by_cases hij : i = j
      · subst hij
        rw [List.getElem?_set_self hlt, List.getElem?_set_self hi]
      · rw [List.getElem?_set_ne, List.getElem?_set_ne hij, h.elem j hj]
        intro e
        rw [mod_wrap _ _ _ (by omega) (by omega), mod_wrap _ _ _ (by omega) (by omega)] at e
        split at e <;> split at e <;> omega

/-- C143. As long as there is room for what is added, an iterator reads the same element until that is removed. -/
theorem C143_stays (dflt : α) (cap : Nat) (pre ops : List (CDeque.Op α)) (l l' : List α) (d d' : CDeque α) (hs : DequeSpec.run pre [] = some l)
    (hr : CDeque.runAll pre (CDeque.new dflt cap) = .ok d) (hs' : DequeSpec.run ops l = some l') (hr' : CDeque.runAll ops d = .ok d') (hcap : d'.capacity = d.capacity)
    (hbig : d.capacity < 2 ^ 62) (i i' : Nat) (hi : i < l.length) (hp : DequeSpec.places ops l i = some i') :
    ∃ x, l'[i']? = some x ∧ d'.loadIt (plusIt d.beginIt i) = .ok x := by
  have h := rep_runAll_ok (rep_new dflt cap) hs hr
  have h' := rep_runAll_ok h hs' hr'
  have hle := h.le
  have hf := h.front
  change d.buffer.length < 2 ^ 62 at hbig
  obtain ⟨h1, h2⟩ := runAll_slot ops h hs' hr' hcap hi hp
  refine ⟨l'[i'], by simp [h1], ?_⟩
  rw [plusIt_eq _ _ (by unfold beginIt; omega)]
  refine loadIt_rep h' _ i' h1 ?_
  change d'.buffer.length = d.buffer.length at hcap
  rw [h2, hcap]
  rfl

/-- C143 fails when an element is added in front of a full deque: each iterator then reads the element before. -/
theorem C143_full_refuted (dflt : α) (cap : Nat) (pre : List (CDeque.Op α)) (l : List α) (d d' : CDeque α) (v : α) (hs : DequeSpec.run pre [] = some l)
    (hr : CDeque.runAll pre (CDeque.new dflt cap) = .ok d) (hfull : d.size = d.capacity) (hr' : d.run (.pushFront v) = .ok d') (hbig : d.capacity < 2 ^ 62)
    (i : Nat) (hi : i < l.length) : d'.loadIt (plusIt d.beginIt i) = .ok ((v :: l)[i]'(by simp; omega)) := by
  have h := rep_runAll_ok (rep_new dflt cap) hs hr
  have h' : Rep d' (v :: l) := rep_runAll_ok (ops := [.pushFront v]) h rfl (by simp only [runAll, hr', Res.bind_ok])
  have hle := h.le
  have hf := h.front
  change d.buffer.length < 2 ^ 62 at hbig
  change d.size = d.buffer.length at hfull
  rw [plusIt_eq _ _ (by unfold beginIt; omega)]
  refine loadIt_rep h' _ i (by simp; omega) ?_
  change d.pushFront v = _ at hr'
  rw [pushFront_eq, if_pos (by omega)] at hr'
  unfold bufInsert at hr'
  split at hr' <;> cases hr'
  rfl

theorem reaches_of_le (n it last : Nat) (h : last < it) (hn : it + n < 2 ^ 64) : reaches n it last = false := by
  induction n generalizing it with
  | zero =>
    simp [reaches, sameIt]
    omega
  | succ n ih =>
    have h1 : sameIt it last = false := by simp [sameIt]; omega
    rw [reaches, h1]
    simp only [Bool.false_eq_true, if_false]
    rw [show incIt it = it + 1 from Nat.mod_eq_of_lt (by omega)]
    exact ih (it + 1) (by omega) (by omega)

/-- C143 fails for removing what has been visited: if the first element is the last one in the buffer, then after `pop_front` the iterator to the next element still reads that, but it is not
`begin()`, and a loop that counts it up does not come to `end()` (for more than 2^63 steps). -/
theorem C143_loop_refuted (dflt : α) (cap : Nat) (pre : List (CDeque.Op α)) (x y : α) (l : List α) (d d' : CDeque α) (hs : DequeSpec.run pre [] = some (x :: y :: l))
    (hr : CDeque.runAll pre (CDeque.new dflt cap) = .ok d) (hlast : d.front + 1 = d.capacity) (hbig : d.capacity < 2 ^ 62) (hr' : d.run .popFront = .ok d') :
    d'.loadIt (plusIt d.beginIt 1) = .ok y ∧ d'.loadIt d'.beginIt = .ok y ∧ sameIt (plusIt d.beginIt 1) d'.beginIt = false ∧
      ∀ n ≤ 2 ^ 63, reaches n (plusIt d.beginIt 1) d'.endIt = false := by
  have h := rep_runAll_ok (rep_new dflt cap) hs hr
  have h' : Rep d' (y :: l) := rep_runAll_ok (ops := [.popFront]) h rfl (by simp only [runAll, hr', Res.bind_ok])
  have hle := h.le
  have hsz := h'.size
  change d.buffer.length < 2 ^ 62 at hbig
  change d.front + 1 = d.buffer.length at hlast
  simp only [List.length_cons] at hle hsz
  have e : plusIt d.beginIt 1 = d.buffer.length := by
    rw [show (1 : Int) = ((1 : Nat) : Int) from rfl, plusIt_eq _ _ (by unfold beginIt; omega)]
    exact hlast
  change d.popFront = _ at hr'
  rw [popFront_eq, if_pos (by rw [h.size]; simp), modC_pos _ _ (by omega), hlast, Nat.mod_self] at hr'
  cases hr'
  rw [e]
  simp only at hsz
  refine ⟨loadIt_rep h' _ 0 (by simp) ?_, loadIt_rep h' _ 0 (by simp) rfl, ?_, fun n hn => ?_⟩
  · simp
  · exact decide_eq_false (show ¬ (0 = d.buffer.length) by omega)
  · refine reaches_of_le _ _ _ ?_ (by omega)
    unfold endIt
    simp only
    rw [Nat.mod_eq_of_lt (by omega)]
    omega

/-! ### Examples -/

/-- A deque of capacity three that wraps around. -/
def wrapped : CDeque Nat := ⟨2, 2, [3, 0, 2]⟩

example : CDeque.runAll [.pushBack 0, .pushBack 1, .popFront, .popFront, .pushBack 2, .pushBack 3] (CDeque.new 0 3) = .ok ⟨2, 2, [3, 1, 2]⟩ := by decide
example : DequeSpec.run [.pushBack 0, .pushBack 1, .popFront, .popFront, .pushBack 2, .pushBack 3] [] = some [2, 3] := by decide

/-- The iterator to 3 reads it after an element is added at either end, -/
example : wrapped.loadIt (plusIt wrapped.beginIt 1) = .ok 3 := by decide +kernel
example : DequeSpec.places [.pushFront 7] [2, 3] 1 = some 2 := by decide
example : (wrapped.run (.pushFront 7) >>= fun d => d.loadIt (plusIt wrapped.beginIt 1)) = .ok 3 := by decide +kernel

/-- reads 2 once a second is added in front, -/
example : (CDeque.runAll [.pushFront 7, .pushFront 8] wrapped >>= fun d => d.loadIt (plusIt wrapped.beginIt 1)) = .ok 2 := by decide +kernel

/-- and is not `begin()` after `pop_front`. -/
example : (wrapped.run .popFront >>= fun d => .ok (sameIt (plusIt wrapped.beginIt 1) d.beginIt, d.loadIt (plusIt wrapped.beginIt 1), d.loadIt d.beginIt))
    = .ok (false, .ok 3, .ok 3) := by decide +kernel

end Flut
