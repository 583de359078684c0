import Verif.Model.NoAssert
import Verif.Props.Containers

/-!
# C168: builds without assertions
-/

namespace Flut

namespace NoAssert

section Deque

variable {α : Type}

theorem subWrap_eq (a b : Nat) (h : b ≤ a) (ha : a < 2 ^ 64) : subWrap a b = a - b := by
  unfold subWrap
  rw [show a + 2 ^ 64 - b = (a - b) + 2 ^ 64 by omega, Nat.add_mod_right, Nat.mod_eq_of_lt (by omega)]

theorem subWrap_zero : subWrap 0 1 = 2 ^ 64 - 1 := by decide +kernel

attribute [local irreducible] subWrap

theorem pushBack_wrapped (d : CDeque α) (v : α) (hs : (d.size + 1) % 2 ^ 64 = 0) (hb : 0 < d.buffer.length) :
    ∃ b, pushBack v d = .ok ⟨d.front, 0, b⟩ := by
  unfold pushBack backPlace
  dsimp only
  rw [hs, if_neg (Nat.not_lt_zero _)]
  generalize subWrap _ 1 = p
  rw [show (CDeque.mk d.front 0 d.buffer).capacity = d.buffer.length from rfl, CDeque.modC_pos _ _ (by omega), Res.bind_ok]
  exact ⟨_, if_pos (Nat.mod_lt _ hb)⟩

/-- What holds of a deque of at most `n` places. -/
structure Small (n : Nat) (d : CDeque α) : Prop where
  size : d.size ≤ d.buffer.length
  front : d.front ≤ d.buffer.length
  cap : d.buffer.length ≤ n

theorem insertIdx_length_le (l : List α) (i : Nat) (v : α) (h : i ≤ l.length) : (l.insertIdx i v).length = l.length + 1 := by
  rw [List.length_insertIdx, if_pos h]

theorem run_step (n : Nat) (hn : n < 2 ^ 63) (op : CDeque.Op α) (d d' : CDeque α) (h : Small n d) (hr : CDeque.run op d = .ok d') :
    run op d = .ok d' ∧ Small (n + 1) d' := by
  have h1 := h.size
  have h2 := h.front
  have h3 := h.cap
  have hsz : (d.size + 1) % 2 ^ 64 = d.size + 1 := Nat.mod_eq_of_lt (by omega)
  cases op with
  | pushBack v =>
    change d.pushBack v = _ at hr
    change pushBack v d = _ ∧ _
    rw [CDeque.pushBack_eq] at hr
    unfold pushBack backPlace
    dsimp only
    rw [hsz]
    have e : subWrap ((d.front + (d.size + 1)) % 2 ^ 64) 1 = d.front + (d.size + 1) - 1 := by
      rw [Nat.mod_eq_of_lt (by omega), subWrap_eq _ _ (by omega) (by omega)]
    rw [e]
    refine ⟨hr, ?_⟩
    split at hr
    · unfold CDeque.bufInsert at hr
      split at hr
      · rename_i hp
        cases hr
        exact ⟨by simp only at hp ⊢; rw [insertIdx_length_le _ _ _ hp]; omega, by simp only at hp ⊢; rw [insertIdx_length_le _ _ _ hp]; omega,
          by simp only at hp ⊢; rw [insertIdx_length_le _ _ _ hp]; omega⟩
      · cases hr
    · rename_i hc
      unfold CDeque.modC at hr
      split at hr
      · cases hr
      · simp only [Res.bind_ok, CDeque.bufSet] at hr
        split at hr
        · cases hr
          exact ⟨by simp; omega, by simpa using h2, by simp; omega⟩
        · cases hr
  | pushFront v =>
    change d.pushFront v = _ at hr
    change pushFront v d = _ ∧ _
    rw [CDeque.pushFront_eq] at hr
    unfold pushFront
    dsimp only
    rw [hsz]
    refine ⟨?_, ?_⟩
    · by_cases hc : d.size + 1 > d.buffer.length
      · rw [if_pos hc] at hr
        exact (if_pos hc).trans hr
      · rw [if_neg hc] at hr
        refine (if_neg hc).trans ?_
        have e : subWrap (d.front + d.buffer.length) 1 = d.front + d.buffer.length - 1 := subWrap_eq _ _ (by omega) (by omega)
        rw [show (CDeque.mk d.front (d.size + 1) d.buffer).capacity = d.buffer.length from rfl, e]
        exact hr
    · split at hr
      · unfold CDeque.bufInsert at hr
        rw [if_pos h2] at hr
        cases hr
        exact ⟨by simp only; rw [insertIdx_length_le _ _ _ h2]; omega, by simp only; rw [insertIdx_length_le _ _ _ h2]; omega,
          by simp only; rw [insertIdx_length_le _ _ _ h2]; omega⟩
      · rename_i hc
        unfold CDeque.modC at hr
        split at hr
        · cases hr
        · simp only [Res.bind_ok, CDeque.bufSet] at hr
          split at hr
          · rename_i hlt
            cases hr
            exact ⟨by simp; omega, by simp only [List.length_set]; omega, by simp; omega⟩
          · cases hr
  | popBack =>
    change d.popBack = _ at hr
    change popBack d = _ ∧ _
    unfold CDeque.popBack at hr
    split at hr
    · rename_i hp
      cases hr
      refine ⟨by unfold popBack; rw [subWrap_eq _ _ (by omega) (by omega)], ?_, h2, by simp only; omega⟩
      simp only
      omega
    · cases hr
  | popFront =>
    change d.popFront = _ at hr
    change popFront d = _ ∧ _
    rw [CDeque.popFront_eq] at hr
    split at hr
    · rename_i hp
      unfold popFront
      rw [subWrap_eq _ _ (by omega) (by omega)]
      refine ⟨hr, ?_⟩
      unfold CDeque.modC at hr
      split at hr
      · cases hr
      · cases hr
        refine ⟨by simp only; omega, ?_, by simp only; omega⟩
        exact le_of_lt (Nat.mod_lt _ (by omega))
    · cases hr
  | clear =>
    change Res.ok d.clear = _ at hr
    cases hr
    exact ⟨rfl, Nat.zero_le _, Nat.zero_le _, by simp only [CDeque.clear]; omega⟩

theorem runAll_same (ops : List (CDeque.Op α)) : ∀ (n : Nat) (d d' : CDeque α), n + ops.length < 2 ^ 63 → Small n d → CDeque.runAll ops d = .ok d' →
    runAll ops d = .ok d' ∧ Small (n + ops.length) d' := by
  induction ops with
  | nil =>
    intro n d d' hn h hr
    cases hr
    exact ⟨rfl, h⟩
  | cons op ops ih =>
    intro n d d' hn h hr
    simp only [List.length_cons] at hn
    unfold CDeque.runAll at hr
    cases hs : CDeque.run op d with
    | ok d1 =>
      rw [hs] at hr
      simp only [Res.bind_ok] at hr
      obtain ⟨h1, h2⟩ := run_step n (by omega) op d d1 h hs
      obtain ⟨h3, h4⟩ := ih (n + 1) d1 d' (by omega) h2 hr
      refine ⟨?_, by rw [List.length_cons, ← Nat.add_assoc, Nat.add_right_comm]; exact h4⟩
      unfold runAll
      rw [h1]
      exact h3
    | ub => rw [hs] at hr; cases hr
    | throws e => rw [hs] at hr; cases hr
    | diverges => rw [hs] at hr; cases hr

end Deque

section Header

variable {L : Type} [DecidableEq L]

theorem headerSet_same (idx : Nat) (label : L) (h : Header L) (r : Nat × Header L) (hr : h.set idx label = .ok r) : headerSet idx label h = .ok r := by
  unfold Header.set at hr
  cases hf : h.find label with
  | ok i =>
    rw [hf] at hr
    simp only [Res.bind_ok] at hr
    split at hr
    · exact hr
    · cases hr
  | ub => rw [hf] at hr; cases hr
  | throws e => rw [hf] at hr; cases hr
  | diverges => rw [hf] at hr; cases hr

theorem headerAdd_same (label : L) (h : Header L) (r : Nat × Header L) (hr : h.add label = .ok r) : headerAdd label h = .ok r := by
  unfold Header.add at hr
  cases hf : h.find label with
  | ok i =>
    rw [hf] at hr
    simp only [Res.bind_ok] at hr
    split at hr
    · exact hr
    · cases hr
  | ub => rw [hf] at hr; cases hr
  | throws e => rw [hf] at hr; cases hr
  | diverges => rw [hf] at hr; cases hr

omit [DecidableEq L] in
theorem headerResize_same (dl : L) (s : Nat) (h h' : Header L) (hr : h.resize dl s = .ok h') : headerResize dl s h = .ok h' := by
  unfold Header.resize at hr
  split at hr
  · exact hr
  · cases hr

theorem headerRun_same (dl : L) (op : Header.Op L) (h h' : Header L) (hr : Header.run dl op h = .ok h') : headerRun dl op h = .ok h' := by
  cases op with
  | add l =>
    simp only [Header.run] at hr
    cases hs : h.add l with
    | ok r =>
      rw [hs] at hr
      simp only [headerRun, headerAdd_same l h r hs, Res.bind_ok]
      exact hr
    | ub => rw [hs] at hr; cases hr
    | throws e => rw [hs] at hr; cases hr
    | diverges => rw [hs] at hr; cases hr
  | append l =>
    simp only [Header.run, Header.append] at hr
    cases hs : h.resize dl (h.size + 1) with
    | ok h1 =>
      rw [hs] at hr
      simp only [Res.bind_ok] at hr
      cases ht : h1.set (h1.size - 1) l with
      | ok r =>
        rw [ht] at hr
        simp only [headerRun, headerResize_same dl _ h h1 hs, Res.bind_ok, headerSet_same _ l h1 r ht]
        exact hr
      | ub => rw [ht] at hr; cases hr
      | throws e => rw [ht] at hr; cases hr
      | diverges => rw [ht] at hr; cases hr
    | ub => rw [hs] at hr; cases hr
    | throws e => rw [hs] at hr; cases hr
    | diverges => rw [hs] at hr; cases hr
  | resize s => exact headerResize_same dl s h h' hr
  | clear => exact hr

end Header

end NoAssert

/-- Every history of a deque in which no assertion fails is the same without assertions, and so is what `front` and `back` return in
the end. -/
theorem C168_deque {α : Type} (dflt : α) (cap : Nat) (ops : List (CDeque.Op α)) (d : CDeque α) (hbig : cap + ops.length < 2 ^ 63)
    (hr : CDeque.runAll ops (CDeque.new dflt cap) = .ok d) :
    NoAssert.runAll ops (CDeque.new dflt cap) = .ok d ∧ (∀ x, d.frontElem = .ok x → NoAssert.front d = .ok x) ∧
      ∀ x, d.back = .ok x → NoAssert.back d = .ok x := by
  obtain ⟨h1, h2, h3, h4⟩ := NoAssert.runAll_same ops cap (CDeque.new dflt cap) d hbig ⟨Nat.zero_le _, Nat.zero_le _, by simp [CDeque.new]⟩ hr
  refine ⟨h1, ?_, ?_⟩
  · intro x hx
    unfold CDeque.frontElem at hx
    split at hx
    · exact hx
    · cases hx
  · intro x hx
    unfold CDeque.back at hx
    split at hx
    · unfold NoAssert.back NoAssert.backPlace
      rw [Nat.mod_eq_of_lt (by omega), NoAssert.subWrap_eq _ _ (by omega) (by omega)]
      exact hx
    · cases hx

example : (NoAssert.runAll [.pushBack 1, .pushBack 2, .popFront, .pushBack 3] (CDeque.new 0 2) >>= NoAssert.back) = .ok 3 := by decide +kernel

/-- Without assertions, `pop_back` on an empty deque leaves a deque of the largest possible size, and the next element that is added
is lost: the size is zero again. -/
theorem C168_pop_refuted {α : Type} (d : CDeque α) (v : α) (h0 : d.size = 0) (hc : 0 < d.capacity) :
    ∃ d1 d2, d.popBack = .throws .assertion ∧ NoAssert.popBack d = .ok d1 ∧ d1.size = 2 ^ 64 - 1 ∧ NoAssert.pushBack v d1 = .ok d2 ∧ d2.size = 0 := by
  have h1 : NoAssert.popBack d = .ok { d with size := 2 ^ 64 - 1 } := by
    unfold NoAssert.popBack
    rw [h0, NoAssert.subWrap_zero]
  obtain ⟨b, h2⟩ := NoAssert.pushBack_wrapped { d with size := 2 ^ 64 - 1 } v (by norm_num) (by change 0 < d.capacity; omega)
  refine ⟨_, _, ?_, h1, rfl, h2, rfl⟩
  unfold CDeque.popBack
  rw [if_neg (by omega)]

example : (NoAssert.popBack (CDeque.new 0 3) >>= NoAssert.pushBack 5 >>= fun d => .ok d.size) = .ok 0 := by decide +kernel

/-- Every history of the labels of a storage or table in which no assertion fails is the same without assertions, from any state. -/
theorem C168_header {L : Type} [DecidableEq L] (dl : L) (ops : List (Header.Op L)) (h h' : Header L) (hr : Header.runAll dl ops h = .ok h') :
    NoAssert.headerRunAll dl ops h = .ok h' := by
  induction ops generalizing h with
  | nil => exact hr
  | cons op ops ih =>
    unfold Header.runAll at hr
    cases hs : Header.run dl op h with
    | ok h1 =>
      rw [hs] at hr
      unfold NoAssert.headerRunAll
      rw [NoAssert.headerRun_same dl op h h1 hs]
      exact ih h1 hr
    | ub => rw [hs] at hr; cases hr
    | throws e => rw [hs] at hr; cases hr
    | diverges => rw [hs] at hr; cases hr

example : (NoAssert.headerRunAll 0 [.add 4, .append 5, .resize 3] (.clear : Header Nat)).isOk = true := by decide +kernel

/-- Without assertions, a label that is added twice names the newer channel only, and after shrinking a label is found at a place that
is not there. -/
theorem C168_header_refuted : ∃ h h' : Header Nat,
    Header.runAll 0 [.add 7, .add 7] .clear = .throws .assertion ∧ NoAssert.headerRunAll 0 [.add 7, .add 7] .clear = .ok h ∧
      h.get 0 = .ok 7 ∧ h.get 1 = .ok 7 ∧ h.find 7 = .ok (some 1) ∧
    Header.runAll 0 [.add 7, .add 8, .resize 1] .clear = .throws .assertion ∧ NoAssert.headerRunAll 0 [.add 7, .add 8, .resize 1] .clear = .ok h' ∧
      h'.size = 1 ∧ h'.find 8 = .ok (some 1) ∧ h'.get 1 = .ub :=
  ⟨_, _, rfl, rfl, rfl, rfl, rfl, rfl, rfl, rfl, rfl, rfl⟩

/-- What `at`, `operator[]`, `operator()` and `add_frame` of data containers return or leave behind with assertions, they do without. -/
theorem C168_access {α L : Type} [DecidableEq L] (s s' : Storage α L) (b : FrameBuf α L) (t t' : Table α L) (i c : Nat) (x dv : α) (xs : List α) :
    (s.at' i c = .ok x → NoAssert.storageAt i c s = .ok x) ∧
    (s.putAt i c x = .ok s' → NoAssert.storagePutAt i c x s = .ok s') ∧
    (s.last c = .ok x → NoAssert.storageLast c s = .ok x) ∧
    (s.addFrameData dv xs = .ok s' → NoAssert.storageAddFrame dv xs s = .ok s') ∧
    (b.at' i c = .ok x → NoAssert.frameAt i c b = .ok x) ∧
    (t.get i c = .ok x → NoAssert.tableGet i c t = .ok x) ∧
    (t.put i c x = .ok t' → NoAssert.tablePut i c x t = .ok t') := by
  refine ⟨fun h => ?_, fun h => ?_, fun h => ?_, fun h => ?_, fun h => ?_, fun h => ?_, fun h => ?_⟩
  · unfold Storage.at' at h
    split at h
    · exact h
    · cases h
  · unfold Storage.putAt at h
    split at h
    · exact h
    · cases h
  · unfold Storage.last at h
    split at h
    · cases h
    · exact h
  · unfold Storage.addFrameData at h
    split at h
    · rename_i hl
      unfold NoAssert.storageAddFrame
      dsimp only at h ⊢
      rw [if_pos (by omega), ← h]
      have : (vresize s.data (s.data.length + s.channels) dv).length = s.data.length + s.channels := by
        simp [vresize]
      rw [List.drop_of_length_le (by rw [this]; omega), List.append_nil]
    · cases h
  · unfold FrameBuf.at' at h
    split at h
    · exact h
    · cases h
  · unfold Table.get at h
    split at h
    · exact h
    · cases h
  · unfold Table.put at h
    split at h
    · exact h
    · cases h

/-- The same for the children of a node by index, and `back_index` of a vector. -/
theorem C168_index {α : Type} (n n' c : PN) (i : Nat) (k : Str) (v : List α) (hv : v.length < 2 ^ 64) :
    (n.getChildAt i = .ok (c, n') → NoAssert.getChildAt i n = .ok (c, n')) ∧
    (n.getKey i = .ok (k, n') → NoAssert.getKey i n = .ok (k, n')) ∧
    ∀ j, Tools.backIndex v = .ok j → NoAssert.backIndex v = .ok j := by
  obtain ⟨f, w, cs⟩ := n
  refine ⟨fun h => ?_, fun h => ?_, fun j h => ?_⟩
  · unfold PN.getChildAt at h
    unfold NoAssert.getChildAt
    cases hc : cs[i]? with
    | none => simp only [hc] at h; cases h
    | some kn => simp only [hc] at h ⊢; exact h
  · unfold PN.getKey at h
    unfold NoAssert.getKey
    cases hc : cs[i]? with
    | none => simp only [hc] at h; cases h
    | some kn => simp only [hc] at h ⊢; exact h
  · unfold Tools.backIndex at h
    split at h
    · unfold NoAssert.backIndex
      rw [NoAssert.subWrap_eq _ _ (by omega) hv]
      exact h
    · cases h

/-- Without assertions, `at` of a storage for a channel that is not there reads the next frame, and a child by an index that is not
there is undefined. -/
theorem C168_access_refuted {α L : Type} [DecidableEq L] (s : Storage α L) (frame channel : Nat) (n : PN) (i : Nat) :
    (frame < s.frames → s.at' frame (s.channels + channel) = .throws .assertion) ∧
    NoAssert.storageAt frame (s.channels + channel) s = NoAssert.storageAt (frame + 1) channel s ∧
    (n.getChildAt i = .throws .assertion → NoAssert.getChildAt i n = .ub) := by
  refine ⟨fun _ => ?_, ?_, fun h => ?_⟩
  · unfold Storage.at'
    rw [if_neg (by omega)]
  · unfold NoAssert.storageAt
    rw [Nat.add_mul, Nat.one_mul, Nat.add_assoc]
  · obtain ⟨f, w, cs⟩ := n
    unfold PN.getChildAt at h
    unfold NoAssert.getChildAt
    cases hc : cs[i]? with
    | none => simp only [hc]
    | some kn => simp only [hc] at h; cases h

/-- The first channel of the second frame. -/
example : NoAssert.storageAt 0 2 (⟨2, .new 0 2, [1, 2, 3, 4]⟩ : Storage Nat Nat) = .ok 3 := by decide +kernel

end Flut
