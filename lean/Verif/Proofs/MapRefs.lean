import Verif.Spec.MapRefs
import Verif.Spec.Data
import Verif.Proofs.Containers

/-!
# References to the values of a `flat_map` and references by key
-/

namespace Flut

open Spec

namespace FlatMap

variable {K V : Type} [DecidableEq K]

theorem find_of_get (m : FlatMap K V) (hn : (m.map Prod.fst).Nodup) : ∀ (i : Nat) (k : K) (v : V), m[i]? = some (k, v) → find k m = some i := by
  induction m with
  | nil => intro i k v h; cases h
  | cons a m ih =>
    intro i k v h
    obtain ⟨k', v'⟩ := a
    simp only [List.map_cons, List.nodup_cons] at hn
    cases i with
    | zero => cases h; simp [find]
    | succ i =>
      simp only [List.getElem?_cons_succ] at h
      have h1 : k' ≠ k := by
        rintro rfl
        exact hn.1 (List.mem_map.2 ⟨_, List.mem_of_getElem? h, rfl⟩)
      simp [find, h1, ih hn.2 i k v h]

theorem val_of_get (m : FlatMap K V) (hn : (m.map Prod.fst).Nodup) (i : Nat) (k : K) (v : V) (h : m[i]? = some (k, v)) : val k m = some v := by
  obtain ⟨w, h1, h2⟩ := find_some k m i (find_of_get m hn i k v h)
  rw [h] at h1
  cases h1
  exact h2

theorem modify_eq_assign (m : FlatMap K V) (hn : (m.map Prod.fst).Nodup) (d : V) (i : Nat) (k : K) (w v : V) (h : m[i]? = some (k, w)) :
    (m.modify i fun kv => (kv.1, v)) = m.assign d k v := by
  simp only [assign, index, find_of_get m hn i k w h]

theorem takeWhile_find (m : FlatMap K V) (k : K) (i : Nat) (h : find k m = some i) (j : Nat) (k' : K) (v : V) (hj : m[j]? = some (k', v))
    (hn : (m.map Prod.fst).Nodup) : k' ∈ (m.map Prod.fst).takeWhile (· ≠ k) ↔ j < i := by
  induction m generalizing i j with
  | nil => cases hj
  | cons a m ih =>
    obtain ⟨k1, v1⟩ := a
    simp only [List.map_cons, List.nodup_cons] at hn
    simp only [find] at h
    split at h
    · rename_i e
      cases h
      simp [e]
    · rename_i e
      simp only [Option.map_eq_some_iff] at h
      obtain ⟨i', h1, rfl⟩ := h
      rw [List.map_cons, List.takeWhile_cons_of_pos (by simpa using e)]
      cases j with
      | zero => cases hj; simp
      | succ j =>
        simp only [List.getElem?_cons_succ] at hj
        have h2 : k' ≠ k1 := by
          rintro rfl
          exact hn.1 (List.mem_map.2 ⟨_, List.mem_of_getElem? hj, rfl⟩)
        rw [List.mem_cons]
        simp only [h2, false_or]
        rw [ih i' h1 j hj hn.2]
        omega

end FlatMap

namespace MapRefs

variable {K V : Type} [DecidableEq K]

theorem valid_iff (s : Slots) (r : Ref) : s.valid r = true ↔ r.epoch = s.epoch r.idx := by simp [Slots.valid]

theorem valid_false (s : Slots) (r : Ref) : s.valid r = false ↔ r.epoch ≠ s.epoch r.idx := by simp [Slots.valid]

/-- A `flat_map` with references shows a dictionary. -/
structure Shows (m : MapRefs K V) (d : Dict K V) : Prop where
  keys : m.map.map Prod.fst = d.order
  nodup : (m.map.map Prod.fst).Nodup
  vals : ∀ k, m.map.val k = d.value k
  cap : m.slots.cap = d.room
  fits : m.map.length ≤ m.slots.cap
  young : ∀ j, m.slots.epoch j < m.slots.next
  old : ∀ h r, m.handle h = some r → r.epoch < m.slots.next
  live : ∀ h k, d.handle h = some k → ∃ r v, m.handle h = some r ∧ m.slots.valid r ∧ m.map[r.idx]? = some (k, v)
  dead : ∀ h, d.handle h = none → ∀ r, m.handle h = some r → m.slots.valid r = false

theorem Shows.empty : Shows (MapRefs.empty : MapRefs K V) Dict.empty :=
  ⟨rfl, List.nodup_nil, fun _ => rfl, rfl, Nat.le_refl _, fun _ => Nat.zero_lt_one, (by intro h r h1; cases h1), (by intro h k h1; cases h1),
    (by intro h _ r h1; cases h1)⟩

theorem Shows.length {m : MapRefs K V} {d : Dict K V} (h : Shows m d) : d.order.length = m.map.length := by
  rw [← h.keys, List.length_map]

theorem Shows.touch {m : MapRefs K V} {d : Dict K V} (h : Shows m d) (grow : Nat → Nat → Nat) (dflt : V) (k : K) :
    Shows (m.touch grow dflt k).2 (d.touch grow dflt k) ∧ ∃ v, (m.touch grow dflt k).2.map[(m.touch grow dflt k).1]? = some (k, v) := by
  cases hf : m.map.find k with
  | some i =>
    have hk : k ∈ d.order := by
      rw [← h.keys]
      obtain ⟨v, h1, -⟩ := FlatMap.find_some k m.map i hf
      exact List.mem_map.2 ⟨_, List.mem_of_getElem? h1, rfl⟩
    have e1 : m.touch grow dflt k = (i, m) := by simp [MapRefs.touch, FlatMap.index, hf]
    have e2 : d.touch grow dflt k = d := by simp [Dict.touch, hk]
    rw [e1, e2]
    obtain ⟨v, h1, -⟩ := FlatMap.find_some k m.map i hf
    exact ⟨h, v, h1⟩
  | none =>
    have hk' := (FlatMap.find_none_iff k m.map).1 hf
    have hk : k ∉ d.order := by rw [← h.keys]; exact hk'
    have e1 : m.touch grow dflt k = (m.map.length, { m with map := m.map ++ [(k, dflt)], slots := m.slots.room grow (m.map.length + 1) }) := by
      simp [MapRefs.touch, FlatMap.index, hf]
    have hv : ∀ j, (m.map ++ [(k, dflt)]).val j = if j = k then some dflt else d.value j := by
      intro j
      have := FlatMap.index_val dflt k m.map j
      simp only [FlatMap.index, hf] at this
      rw [this, h.vals]
      by_cases e : k = j
      · subst e
        rw [if_pos rfl, if_pos rfl, ← h.vals, (FlatMap.val_none_iff k m.map).2 hk']
        rfl
      · rw [if_neg e, if_neg (Ne.symm e)]
    have hn : ((m.map ++ [(k, dflt)]).map Prod.fst).Nodup := by
      rw [List.map_append, List.nodup_append]
      refine ⟨h.nodup, by simp, ?_⟩
      intro a ha b hb
      simp at hb
      subst hb
      rintro rfl
      exact hk' ha
    rw [e1]
    refine ⟨?_, dflt, by simp⟩
    simp only [Dict.touch, if_neg hk]
    split
    · rename_i hr
      rw [← h.cap, h.length] at hr
      have e3 : m.slots.room grow (m.map.length + 1) = ⟨max (m.map.length + 1) (grow m.slots.cap (m.map.length + 1)), m.slots.next + 1, fun _ => m.slots.next⟩ := by
        rw [Slots.room, if_neg (by omega)]
      rw [e3]
      refine ⟨by simp [h.keys], hn, hv, by simp [h.cap, h.length], by simp; omega, fun _ => by simp, ?_, (by intro _ _ h1; cases h1), ?_⟩
      · intro h' r h1
        have := h.old h' r h1
        simp only
        omega
      · intro h' _ r h1
        have := h.old h' r h1
        simp only [Slots.valid, decide_eq_false_iff_not]
        omega
    · rename_i hr
      rw [← h.cap, h.length] at hr
      have e3 : m.slots.room grow (m.map.length + 1) = m.slots := by
        rw [Slots.room, if_pos (by omega)]
      rw [e3]
      refine ⟨by simp [h.keys], hn, hv, h.cap, by simp; omega, h.young, h.old, ?_, h.dead⟩
      intro h' k' h1
      obtain ⟨r, v, h2, h3, h4⟩ := h.live h' k' h1
      refine ⟨r, v, h2, h3, ?_⟩
      have := (List.getElem?_eq_some_iff.1 h4).1
      rw [List.getElem?_append_left this, h4]

theorem Shows.write {m : MapRefs K V} {d : Dict K V} (h : Shows m d) (i : Nat) (k : K) (w v : V) (hi : m.map[i]? = some (k, w)) :
    Shows { m with map := m.map.modify i fun kv => (kv.1, v) } (d.write k v) := by
  have h1 : i < m.map.length := (List.getElem?_eq_some_iff.1 hi).1
  have e := FlatMap.modify_eq_assign m.map h.nodup v i k w v hi
  have hk : k ∈ m.map.map Prod.fst := List.mem_map.2 ⟨_, List.mem_of_getElem? hi, rfl⟩
  have e2 : (m.map.modify i fun kv => (kv.1, v)).map Prod.fst = m.map.map Prod.fst := by
    rw [e, FlatMap.assign_keys, if_pos hk]
  refine ⟨by rw [e2]; exact h.keys, by rw [e2]; exact h.nodup, ?_, h.cap, by simpa using h.fits, h.young, h.old, ?_, h.dead⟩
  · intro j
    simp only [e, FlatMap.assign_val, Dict.write, h.vals]
    by_cases e3 : k = j
    · subst e3; simp
    · rw [if_neg e3, if_neg (Ne.symm e3)]
  · intro h' k' h2
    obtain ⟨r, x, h3, h4, h5⟩ := h.live h' k' h2
    by_cases e3 : i = r.idx
    · refine ⟨r, v, h3, h4, ?_⟩
      subst e3
      rw [hi] at h5
      cases h5
      simp [hi]
    · refine ⟨r, x, h3, h4, ?_⟩
      simp only
      rw [List.getElem?_modify, h5]
      simp [e3]

theorem valid_ref (s : Slots) (i : Nat) : s.valid (s.ref i) := by simp [Slots.valid, Slots.ref]

theorem Shows.store {m : MapRefs K V} {d : Dict K V} (h : Shows m d) (r : Ref) (hr : m.slots.valid r) (k : K) (w v : V) (hi : m.map[r.idx]? = some (k, w)) :
    ∃ m', m.store r v = .ok m' ∧ Shows m' (d.write k v) := by
  have h1 : r.idx < m.map.length := (List.getElem?_eq_some_iff.1 hi).1
  exact ⟨_, by rw [MapRefs.store, if_pos ⟨hr, h1⟩], h.write r.idx k w v hi⟩

theorem Shows.load {m : MapRefs K V} {d : Dict K V} (h : Shows m d) (r : Ref) (hr : m.slots.valid r) (k : K) (w : V) (hi : m.map[r.idx]? = some (k, w)) :
    m.load r = .ok w ∧ d.value k = some w := by
  refine ⟨?_, ?_⟩
  · rw [MapRefs.load, if_pos hr, hi]
  · rw [← h.vals]
    exact FlatMap.val_of_get m.map h.nodup r.idx k w hi

theorem Shows.step {m : MapRefs K V} {d : Dict K V} (h : Shows m d) (grow : Nat → Nat → Nat) (dflt : V) (op : Op K V) :
    Agree (fun p q => p.1 = q.1 ∧ Shows p.2 q.2) (m.step grow dflt op) (d.step grow dflt op) := by
  cases op with
  | ref h' k =>
    obtain ⟨h1, v, h2⟩ := h.touch grow dflt k
    simp only [MapRefs.step, Dict.step]
    refine ⟨rfl, h1.keys, h1.nodup, h1.vals, h1.cap, h1.fits, h1.young, ?_, ?_, ?_⟩
    · intro h3 r h4
      simp only at h4
      split at h4
      · cases h4; exact h1.young _
      · exact h1.old _ _ h4
    · intro h3 k' h4
      simp only at h4 ⊢
      by_cases e : h3 = h'
      · rw [if_pos e] at h4 ⊢
        cases h4
        exact ⟨_, v, rfl, valid_ref _ _, h2⟩
      · rw [if_neg e] at h4 ⊢
        exact h1.live _ _ h4
    · intro h3 h4 r h5
      simp only at h4 h5 ⊢
      by_cases e : h3 = h'
      · rw [if_pos e] at h4; cases h4
      · rw [if_neg e] at h4 h5
        exact h1.dead _ h4 _ h5
  | assign k v =>
    obtain ⟨h1, w, h2⟩ := h.touch grow dflt k
    obtain ⟨m', h3, h4⟩ := h1.store ((m.touch grow dflt k).2.slots.ref (m.touch grow dflt k).1) (valid_ref _ _) k w v h2
    simp only [MapRefs.step, Dict.step, h3, Res.bind_ok]
    exact ⟨rfl, h4⟩
  | assignFrom rf k j =>
    obtain ⟨h1, w, h2⟩ := h.touch grow dflt (if rf then j else k)
    obtain ⟨h3, x, h4⟩ := h1.touch grow dflt (if rf then k else j)
    simp only [MapRefs.step, Dict.step]
    generalize hm1 : (m.touch grow dflt (if rf then j else k)).2 = m1 at *
    generalize hi1 : (m.touch grow dflt (if rf then j else k)).1 = i1 at *
    generalize hd1 : d.touch grow dflt (if rf then j else k) = d1 at *
    generalize hb : (if rf = true then k else j) = b at *
    generalize ha : (if rf = true then j else k) = a at *
    have hlen : i1 < m1.map.length := (List.getElem?_eq_some_iff.1 h2).1
    by_cases hc : b ∉ d1.order ∧ d1.room ≤ d1.order.length
    · rw [if_pos hc]
      have hf : m1.map.find b = none := by rw [FlatMap.find_none_iff, h1.keys]; exact hc.1
      have e : (m1.touch grow dflt b).2.slots.valid (m1.slots.ref i1) = false := by
        have hc2 := hc.2
        rw [← h1.cap, h1.length] at hc2
        have := h1.young i1
        rw [valid_false]
        simp only [MapRefs.touch, hf, if_true, Slots.room]
        rw [if_neg (show ¬ m1.map.length + 1 ≤ m1.slots.cap by omega)]
        simp only [Slots.ref]
        omega
      cases rf with
      | true =>
        have e' : (m1.touch grow dflt b).2.load (m1.slots.ref i1) = .ub := by rw [MapRefs.load, e]; rfl
        simp only [if_true, e']
        exact trivial
      | false =>
        have e' : ∀ v, (m1.touch grow dflt b).2.store (m1.slots.ref i1) v = .ub := by intro v; rw [MapRefs.store, e]; rfl
        obtain ⟨h5, -⟩ := h3.load ((m1.touch grow dflt b).2.slots.ref (m1.touch grow dflt b).1) (valid_ref _ _) b x h4
        simp only [Bool.false_eq_true, if_false, h5, Res.bind_ok, e']
        exact trivial
    · rw [if_neg hc]
      have e : (m1.touch grow dflt b).2.slots.valid (m1.slots.ref i1) ∧ (m1.touch grow dflt b).2.map[i1]? = some (a, w) := by
        cases hf : m1.map.find b with
        | some i =>
          simp only [MapRefs.touch, FlatMap.index, hf]
          simp [h2, valid_ref]
        | none =>
          have hk : b ∉ d1.order := by rw [← h1.keys]; exact (FlatMap.find_none_iff b m1.map).1 hf
          have hr : ¬ d1.room ≤ d1.order.length := fun hr => hc ⟨hk, hr⟩
          rw [← h1.cap, h1.length] at hr
          simp only [MapRefs.touch, FlatMap.index, hf, if_true, Slots.room]
          rw [if_pos (by omega)]
          exact ⟨valid_ref _ _, by rw [List.getElem?_append_left hlen, h2]⟩
      cases rf with
      | true =>
        simp only [if_true] at ha hb
        subst ha hb
        obtain ⟨h5, h6⟩ := h3.load (m1.slots.ref i1) e.1 j w e.2
        obtain ⟨m', h7, h8⟩ := h3.store ((m1.touch grow dflt k).2.slots.ref (m1.touch grow dflt k).1) (valid_ref _ _) k x w h4
        simp only [if_true, h5, h6, Res.bind_ok, h7]
        exact ⟨rfl, h8⟩
      | false =>
        simp only [Bool.false_eq_true, if_false] at ha hb
        subst ha hb
        obtain ⟨h5, h6⟩ := h3.load ((m1.touch grow dflt j).2.slots.ref (m1.touch grow dflt j).1) (valid_ref _ _) j x h4
        obtain ⟨m', h7, h8⟩ := h3.store (m1.slots.ref i1) e.1 k w x e.2
        simp only [Bool.false_eq_true, if_false, h5, h6, Res.bind_ok, h7]
        exact ⟨rfl, h8⟩
  | load h' =>
    simp only [MapRefs.step, Dict.step]
    cases hd : d.handle h' with
    | none =>
      cases hm : m.handle h' with
      | none => exact trivial
      | some r =>
        simp [MapRefs.load, h.dead h' hd r hm]
        exact trivial
    | some k =>
      obtain ⟨r, v, h1, h2, h3⟩ := h.live h' k hd
      obtain ⟨h5, h6⟩ := h.load r h2 k v h3
      simp only [h1, h5, h6, Res.bind_ok]
      exact ⟨rfl, h⟩
  | store h' v =>
    simp only [MapRefs.step, Dict.step]
    cases hd : d.handle h' with
    | none =>
      cases hm : m.handle h' with
      | none => exact trivial
      | some r =>
        simp [MapRefs.store, h.dead h' hd r hm]
        exact trivial
    | some k =>
      obtain ⟨r, w, h1, h2, h3⟩ := h.live h' k hd
      obtain ⟨m', h5, h6⟩ := h.store r h2 k w v h3
      simp only [h1, h5, Res.bind_ok]
      exact ⟨rfl, h6⟩
  | erase k =>
    simp only [MapRefs.step, Dict.step]
    cases hf : m.map.find k with
    | none =>
      rw [if_neg (by rw [← h.keys]; exact (FlatMap.find_none_iff k m.map).1 hf)]
      exact trivial
    | some i =>
      obtain ⟨v, h1, h2⟩ := FlatMap.find_some k m.map i hf
      have hi : i < m.map.length := (List.getElem?_eq_some_iff.1 h1).1
      have hk : k ∈ d.order := by rw [← h.keys]; exact List.mem_map.2 ⟨_, List.mem_of_getElem? h1, rfl⟩
      rw [if_pos hk]
      obtain ⟨m', h3, h4, h5⟩ := FlatMap.eraseKey_ok k m.map h.nodup (by rw [h2]; simp)
      simp only [FlatMap.eraseKey, hf] at h3
      cases h3
      refine ⟨rfl, ?_, ?_, ?_, h.cap, ?_, ?_, ?_, ?_, ?_⟩
      · simp only [h4, h.keys]
      · simp only [h4]; exact h.nodup.filter _
      · intro j
        simp only [h5, h.vals]
        by_cases e : k = j
        · subst e; simp
        · rw [if_neg e, if_neg (Ne.symm e)]
      · have := h.fits
        simp only [List.length_eraseIdx, Slots.cut]
        split <;> omega
      · intro j
        have := h.young j
        simp only [Slots.cut]
        split <;> omega
      · intro h' r hr
        have := h.old h' r hr
        simp only [Slots.cut]
        omega
      · intro h' k' hh
        simp only [Option.bind_eq_some_iff] at hh
        obtain ⟨j, hj, h6⟩ := hh
        split at h6 <;> cases h6
        rename_i h7
        obtain ⟨r, w, h8, h9, h10⟩ := h.live h' _ hj
        rw [← h.keys, FlatMap.takeWhile_find m.map k i hf r.idx _ w h10 h.nodup] at h7
        refine ⟨r, w, h8, ?_, ?_⟩
        · rw [valid_iff] at h9 ⊢
          change r.epoch = (if i ≤ r.idx then _ else _)
          rw [if_neg (by omega)]
          exact h9
        · rw [List.getElem?_eraseIdx, if_pos h7, h10]
      · intro h' hh r hr
        simp only [Option.bind_eq_none_iff] at hh
        rw [valid_false]
        change r.epoch ≠ (if i ≤ r.idx then m.slots.next else m.slots.epoch r.idx)
        have h6 := h.old h' r hr
        cases hd : d.handle h' with
        | none =>
          have := h.dead h' hd r hr
          rw [valid_false] at this
          split
          · omega
          · exact this
        | some j =>
          have h7 := hh j hd
          obtain ⟨r', w, h8, h9, h10⟩ := h.live h' _ hd
          rw [hr] at h8
          cases h8
          split at h7
          · cases h7
          · rename_i h11
            rw [← h.keys, FlatMap.takeWhile_find m.map k i hf r.idx _ w h10 h.nodup] at h11
            rw [if_pos (by omega)]
            omega
  | clear =>
    simp only [MapRefs.step, Dict.step]
    refine ⟨rfl, rfl, List.nodup_nil, fun _ => rfl, h.cap, Nat.zero_le _, ?_, ?_, (by intro _ _ h1; cases h1), ?_⟩
    · intro j
      simp [Slots.cut]
    · intro h' r hr
      have := h.old h' r hr
      simp only [Slots.cut]
      omega
    · intro h' _ r hr
      have := h.old h' r hr
      rw [valid_false]
      change r.epoch ≠ (if 0 ≤ r.idx then m.slots.next else m.slots.epoch r.idx)
      rw [if_pos (Nat.zero_le _)]
      omega

theorem Shows.run (grow : Nat → Nat → Nat) (dflt : V) (ops : List (Op K V)) : ∀ {m : MapRefs K V} {d : Dict K V}, Shows m d →
    Agree (fun p q => p.1 = q.1 ∧ Shows p.2 q.2) (m.run grow dflt ops) (d.run grow dflt ops) := by
  induction ops with
  | nil => intro m d h; exact ⟨rfl, h⟩
  | cons op ops ih =>
    intro m d h
    have h1 := h.step grow dflt op
    rw [MapRefs.run, Dict.run]
    cases e1 : m.step grow dflt op <;> cases e2 : d.step grow dflt op <;> rw [e1, e2] at h1 <;>
      first | exact h1 | (exfalso; exact h1) | skip
    rename_i p q
    obtain ⟨a, m'⟩ := p
    obtain ⟨a', d'⟩ := q
    obtain ⟨h2, h3⟩ := h1
    have h4 := ih h3
    simp only [Res.bind_ok]
    simp only at h2 h4
    cases e3 : m'.run grow dflt ops <;> cases e4 : d'.run grow dflt ops <;> rw [e3, e4] at h4 <;>
      first | exact h4 | (exfalso; exact h4) | skip
    rename_i p q
    exact ⟨by simp only [h2, show p.1 = q.1 from h4.1], h4.2⟩

end MapRefs

end Flut
