import Verif.Model.Temporaries

/-!
# C171: text and elements that are handed out without a copy
-/

namespace Flut

namespace Lend

/-- Numbers that have not been given out do not stand for strings. -/
def Fresh (st : Store) : Prop := ∀ o, st.next ≤ o → st.obj o = none

/-- The operation changes or ends string `o`. -/
def Touches (o : Nat) : Op → Prop
  | .create _ => False
  | .assign x _ => x = o
  | .destroy x => x = o

theorem fresh_step {st : Store} (h : Fresh st) (op : Op) : Fresh (step st op) := by
  intro o ho
  cases op with
  | create s =>
    simp only [step, Store.create] at ho ⊢
    rw [if_neg (by omega), h o (by omega)]
  | assign x s =>
    simp only [step] at ho ⊢
    rw [h o ho]
    simp
  | destroy x =>
    simp only [step, Store.destroy] at ho ⊢
    rw [h o ho]
    simp

theorem fresh_steps {st : Store} (h : Fresh st) (ops : List Op) : Fresh (steps st ops) := by
  induction ops generalizing st with
  | nil => exact h
  | cons op ops ih => exact ih (fresh_step h op)

theorem fresh_empty : Fresh {} := fun _ _ => rfl

theorem lt_next {st : Store} (h : Fresh st) {o : Nat} {p : Str × Nat} (ho : st.obj o = some p) : o < st.next := by
  rcases Nat.lt_or_ge o st.next with hn | hn
  · exact hn
  · rw [h o hn] at ho
    cases ho

theorem keep_step {st : Store} (h : Fresh st) {o : Nat} {p : Str × Nat} (ho : st.obj o = some p) (op : Op) (hop : ¬ Touches o op) :
    (step st op).obj o = some p := by
  have := lt_next h ho
  cases op with
  | create s => simp only [step, Store.create]; rw [if_neg (by omega), ho]
  | assign x s => simp only [step]; rw [if_neg (fun e => hop e.symm), ho]
  | destroy x => simp only [step, Store.destroy]; rw [if_neg (fun e => hop e.symm), ho]

theorem keep_steps {st : Store} (h : Fresh st) {o : Nat} {p : Str × Nat} (ho : st.obj o = some p) (ops : List Op)
    (hops : ∀ op ∈ ops, ¬ Touches o op) : (steps st ops).obj o = some p := by
  induction ops generalizing st with
  | nil => exact ho
  | cons op ops ih =>
    exact ih (fresh_step h op) (keep_step h ho op (hops op (by simp))) fun x hx => hops x (by simp [hx])

theorem gone_step {st : Store} {o : Nat} (ho : st.obj o = none) (hn : o < st.next) (op : Op) :
    (step st op).obj o = none ∧ o < (step st op).next := by
  cases op with
  | create s => simp only [step, Store.create]; rw [if_neg (by omega), ho]; exact ⟨rfl, by omega⟩
  | assign x s => simp only [step]; rw [ho]; simpa using hn
  | destroy x => simp only [step, Store.destroy]; rw [ho]; simpa using hn

theorem gone_steps {st : Store} {o : Nat} (ho : st.obj o = none) (hn : o < st.next) (ops : List Op) : (steps st ops).obj o = none := by
  induction ops generalizing st with
  | nil => exact ho
  | cons op ops ih => exact ih (gone_step ho hn op).1 (gone_step ho hn op).2

/-- The strings of every program that starts without any. -/
theorem fresh_program (ops : List Op) : Fresh (steps {} ops) := fresh_steps fresh_empty ops

/-- C171: the pointer that a string of the program gives has its text, up to the first null character, whatever else happens, until the
string is changed or destroyed. -/
theorem C171_pointer (before after : List Op) (o : Nat) (s : Str) (ho : value o (steps {} before) = .ok s)
    (h : ∀ op ∈ after, ¬ Touches o op) :
    ∃ p, cStr o (steps {} before) = .ok p ∧ text p (steps (steps {} before) after) = .ok (s.takeWhile (· ≠ 0)) := by
  unfold value at ho
  split at ho
  case h_2 => cases ho
  case h_1 q hq =>
    cases ho
    refine ⟨⟨o, q.2⟩, by simp [cStr, hq], ?_⟩
    obtain ⟨s, v⟩ := q
    simp [text, keep_steps (fresh_program before) hq after h]

/-- C171: text without null characters survives being converted to a pointer and back. -/
theorem C171_round_trip (before after : List Op) (o : Nat) (s : Str) (ho : value o (steps {} before) = .ok s)
    (h : ∀ op ∈ after, ¬ Touches o op) (hs : (0 : Byte) ∉ s) :
    ∃ p, cStr o (steps {} before) = .ok p ∧ text p (steps (steps {} before) after) = .ok s := by
  obtain ⟨p, hp, ht⟩ := C171_pointer before after o s ho h
  refine ⟨p, hp, ht.trans ?_⟩
  congr 1
  clear ho ht
  induction s with
  | nil => rfl
  | cons x r ih =>
    rw [List.mem_cons, not_or] at hs
    rw [List.takeWhile_cons_of_pos (by simpa using fun e : x = 0 => hs.1 e.symm), ih hs.2]

example : value 1 (steps {} [.create b!"a", .create b!"text"]) = .ok b!"text" ∧
    text ⟨1, 0⟩ (steps (steps {} [.create b!"a", .create b!"text"]) [.assign 0 b!"b", .create b!"c", .destroy 0]) = .ok b!"text" := by decide

/-- The string changes: the pointer can no longer be used. -/
example : text ⟨1, 0⟩ (steps (steps {} [.create b!"a", .create b!"text"]) [.assign 1 b!"b"]) = .ub := by decide

/-- C171 is false for text that the expression makes, such as `from_str< const char* >( trim_str( s ) )`: the pointer can never be
used. -/
theorem C171_temporary_refuted (before after : List Op) (s : Str) :
    ∃ p, (cStrOfTemporary s (steps {} before)).1 = .ok p ∧ text p (steps (cStrOfTemporary s (steps {} before)).2 after) = .ub := by
  refine ⟨⟨(steps {} before).next, 0⟩, by simp [cStrOfTemporary, cStr, Store.create], ?_⟩
  have := gone_steps (st := (cStrOfTemporary s (steps {} before)).2) (o := (steps {} before).next)
    (by simp [cStrOfTemporary, Store.create, Store.destroy]) (by simp [cStrOfTemporary, Store.create, Store.destroy]) after
  simp [text, this]

/-- What a dictionary should give: the element with the name, or the default. -/
def Found (name : Str) (data : List (Nat × Str)) (o : Nat) : Prop :=
  ∃ i, data[i]? = some (o, name) ∧ ∀ (j : Nat) (p : Nat × Str), j < i → data[j]? = some p → p.2 ≠ name

theorem dictOr_found (name : Str) (dflt o : Nat) (data : List (Nat × Str)) (h : Found name data o) : dictOr name dflt data = o := by
  obtain ⟨i, hi, hj⟩ := h
  have : data.find? (fun p => decide (name = p.2)) = some (o, name) := by
    rw [List.find?_eq_some_iff_getElem]
    obtain ⟨hl, he⟩ := List.getElem?_eq_some_iff.mp hi
    refine ⟨by simp, i, hl, he, fun j hji => ?_⟩
    have := hj j data[j] hji (List.getElem?_eq_getElem _)
    simpa using fun e : name = data[j].2 => this e.symm
  simp [dictOr, this]

theorem dictOr_missing (name : Str) (dflt : Nat) (data : List (Nat × Str)) (h : ∀ p ∈ data, p.2 ≠ name) :
    dictOr name dflt data = dflt := by
  have : data.find? (fun p => decide (name = p.2)) = none := by
    rw [List.find?_eq_none]
    intro p hp
    simpa using fun e : name = p.2 => h p hp e.symm
  simp [dictOr, this]

/-- C171: the reference that a dictionary gives is to the first element with the name, or to the default if there is none; as long as
neither is changed or destroyed it has the value it had. -/
theorem C171_dictionary (before after : List Op) (name : Str) (data : List (Nat × Str)) (dflt o : Nat) (s : Str)
    (h : Found name data o ∨ (∀ p ∈ data, p.2 ≠ name) ∧ o = dflt) (ho : value o (steps {} before) = .ok s)
    (hops : ∀ op ∈ after, ¬ Touches o op) :
    value (dictOr name dflt data) (steps (steps {} before) after) = .ok s := by
  have e : dictOr name dflt data = o := by
    rcases h with h | ⟨h, rfl⟩
    · exact dictOr_found _ _ _ _ h
    · exact dictOr_missing _ _ _ h
  rw [e]
  unfold value at ho
  split at ho
  case h_2 => cases ho
  case h_1 q hq =>
    cases ho
    simp [value, keep_steps (fresh_program before) hq after hops]

example : Found b!"two" [(0, b!"one"), (1, b!"two")] 1 := ⟨1, rfl, fun j p hj hp => by
  obtain rfl : j = 0 := by omega
  cases hp
  decide⟩

/-- C171: a reference follows the changes of the string it is to. -/
theorem C171_follows (before : List Op) (o : Nat) (s t : Str) (ho : value o (steps {} before) = .ok s) :
    value o (steps {} (before ++ [.assign o t])) = .ok t ∧ value (steps {} before).next (steps {} (before ++ [.create t])) = .ok t := by
  unfold value at ho
  split at ho
  case h_2 => cases ho
  case h_1 q hq =>
    have e : ∀ op, steps {} (before ++ [op]) = step (steps {} before) op := fun op => by simp [steps]
    rw [e, e]
    exact ⟨by simp [value, step, hq], by simp [value, step, Store.create]⟩

/-- C171 is false for a default that the expression makes: if the name is not in the dictionary, the reference can never be used. It can
if the name is there. -/
theorem C171_dictionary_refuted (before after : List Op) (name d : Str) (data : List (Nat × Str)) :
    ((∀ p ∈ data, p.2 ≠ name) →
      value (dictOrTemporary name d data (steps {} before)).1 (steps (dictOrTemporary name d data (steps {} before)).2 after) = .ub) ∧
    (∀ o s, Found name data o → value o (steps {} before) = .ok s → (∀ op ∈ after, ¬ Touches o op) →
      value (dictOrTemporary name d data (steps {} before)).1 (steps (dictOrTemporary name d data (steps {} before)).2 after) = .ok s) := by
  constructor
  · intro h
    have e : (dictOrTemporary name d data (steps {} before)).1 = (steps {} before).next := dictOr_missing _ _ _ h
    have := gone_steps (st := (dictOrTemporary name d data (steps {} before)).2) (o := (steps {} before).next)
      (by simp [dictOrTemporary, Store.create, Store.destroy]) (by simp [dictOrTemporary, Store.create, Store.destroy]) after
    rw [e]
    simp [value, this]
  · intro o s h ho hops
    have e : (dictOrTemporary name d data (steps {} before)).1 = o := dictOr_found _ _ _ _ h
    rw [e]
    unfold value at ho
    split at ho
    case h_2 => cases ho
    case h_1 q hq =>
      cases ho
      have hf := fresh_program before
      have hlt := lt_next hf hq
      have hst : (dictOrTemporary name d data (steps {} before)).2 =
          steps (steps {} before) [.create d, .destroy (steps {} before).next] := rfl
      rw [hst]
      have hk : (steps (steps {} before) [.create d, .destroy (steps {} before).next]).obj o = some q := by
        refine keep_steps hf hq _ fun op hop => ?_
        rcases List.mem_cons.mp hop with rfl | hop
        · exact id
        · obtain rfl := List.mem_singleton.mp hop
          exact fun e : (steps {} before).next = o => by omega
      simp [value, keep_steps (fresh_steps hf _) hk after hops]

example : ∀ p ∈ [(0, b!"one"), (1, b!"two")], p.2 ≠ b!"three" := by decide

end Lend

end Flut
