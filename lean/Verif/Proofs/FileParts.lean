import Verif.Spec.FileParts

/-! # Proofs: one file that is saved and loaded by several programs at the same time -/

namespace Flut

open Spec

theorem atPlaces_prefix {t u : Str} : AtPlaces (fun i c => t[i]? = some c) u ↔ u <+: t := by
  constructor
  · intro h
    induction u generalizing t with
    | nil => exact List.nil_prefix
    | cons c u ih =>
      cases t with
      | nil => exact absurd (h 0 c rfl) (by simp)
      | cons d t =>
        have e : d = c := by simpa using h 0 c rfl
        subst e
        rw [List.cons_prefix_cons]
        exact ⟨rfl, ih fun i b hb => by simpa using h (i + 1) b (by simpa using hb)⟩
  · rintro ⟨v, rfl⟩ i c hc
    rw [List.getElem?_append_left (List.getElem?_eq_some_iff.1 hc).1]
    exact hc

theorem cstr_ne_zero (s : Str) : ∀ c ∈ cstr s, c ≠ 0 := by
  induction s with
  | nil => simp [cstr]
  | cons a s ih =>
    intro c hc
    by_cases ha : a = 0
    · simp [cstr, ha] at hc
    · have : cstr (a :: s) = a :: cstr s := by simp [cstr, ha]
      rw [this] at hc
      rcases List.mem_cons.1 hc with rfl | hc
      · exact ha
      · exact ih c hc

theorem atPlaces_cstr {t u : Str} (h : AtPlaces (fun i c => t[i]? = some c ∨ c = 0) u) : cstr u <+: t := by
  rw [← atPlaces_prefix]
  intro i c hc
  have hp : cstr u <+: u := List.takeWhile_prefix _
  obtain ⟨v, hv⟩ := hp
  have : u[i]? = some c := by
    rw [← hv, List.getElem?_append_left (List.getElem?_eq_some_iff.1 hc).1]; exact hc
  rcases h i c this with h | h
  · exact h
  · exfalso
    subst h
    exact absurd rfl (cstr_ne_zero u 0 (List.mem_of_getElem? hc))

theorem writeAt_get (c : Str) (p : Nat) (part : Str) (i : Nat) :
    (writeAt c p part)[i]? = if i < p then (if i < c.length then c[i]? else some 0)
      else if i < p + part.length then part[i - p]? else c[i]? := by
  have hl : ((c ++ List.replicate (p - c.length) 0).take p).length = p := by simp; omega
  unfold writeAt
  by_cases h1 : i < p
  · rw [if_pos h1, List.append_assoc, List.getElem?_append_left (by omega), List.getElem?_take_of_lt h1]
    by_cases h2 : i < c.length
    · rw [if_pos h2, List.getElem?_append_left h2]
    · rw [if_neg h2, List.getElem?_append_right (by omega), List.getElem?_replicate, if_pos (by omega)]
  · rw [if_neg h1]
    by_cases h2 : i < p + part.length
    · rw [if_pos h2, List.append_assoc, List.getElem?_append_right (by omega), hl, List.getElem?_append_left (by omega)]
    · rw [if_neg h2, List.getElem?_append_right (by simp only [List.length_append, hl]; omega), List.length_append, hl,
        List.getElem?_drop]
      congr 1
      omega

theorem atPlaces_write {may : Nat → Byte → Prop} {c t : Str} {p n : Nat} (hc : AtPlaces may c) (ht : AtPlaces may t)
    (hz : ∀ i, c.length ≤ i → i < p → may i 0) : AtPlaces may (writeAt c p ((t.drop p).take n)) := by
  intro i b h
  rw [writeAt_get] at h
  split at h
  · split at h
    · exact hc i b h
    · injection h with h
      subst h
      exact hz i (by omega) (by omega)
  · split at h
    · rw [List.getElem?_take] at h
      split at h
      · rw [List.getElem?_drop, show p + (i - p) = i by omega] at h
        exact ht i b h
      · cases h
    · exact hc i b h

namespace SharedFile

/-- What the file holds now fits. -/
def Fits (may : Nat → Byte → Prop) (s : SharedFile) : Prop := ∀ c, s.content = some c → AtPlaces may c

/-- What a call has read fits. -/
def GotFits (may : Nat → Byte → Prop) (s : SharedFile) (j : Nat) : Prop :=
  ∀ g, (s.loaders[j]? = some (.reading g) ∨ s.loaders[j]? = some (.done (some g))) → AtPlaces may g

/-- The texts of the calls do not change. -/
theorem act_texts {s t : SharedFile} {a : PartAct} (h : s.act a = some t) : t.savers.map FileSaver.text = s.savers.map FileSaver.text := by
  have aux : ∀ (i : Nat) (x y : FileSaver), s.savers[i]? = some x → y.text = x.text →
      (s.savers.set i y).map FileSaver.text = s.savers.map FileSaver.text := by
    intro i x y hx hy
    rw [List.map_set, hy]
    apply List.ext_getElem?
    intro k
    rw [List.getElem?_set]
    split
    · rename_i hk
      subst hk
      rw [List.getElem?_map, hx]
      simp [(List.getElem?_eq_some_iff.1 hx).1]
    · rfl
  unfold act at h
  split at h
  · split at h
    · rename_i t' hx
      injection h with h
      subst h
      exact aux _ _ _ hx rfl
    · cases h
  · split at h
    · rename_i hx _
      split at h
      · injection h with h
        subst h
        exact aux _ _ _ hx rfl
      · cases h
    · cases h
  · split at h
    · injection h with h
      subst h
      rfl
    · cases h
  · split at h
    · split at h
      · injection h with h
        subst h
        rfl
      · cases h
    · cases h

/-- One step keeps what fits, if the holes it makes may be there. -/
theorem act_fits {may : Nat → Byte → Prop} {s t : SharedFile} {a : PartAct} (h : s.act a = some t)
    (ht : ∀ x ∈ s.savers, AtPlaces may x.text)
    (hz : ∀ (i : Nat) (x : Str) (p : Nat) (c : Str), s.savers[i]? = some (⟨x, some p⟩ : FileSaver) → s.content = some c → ∀ k, c.length ≤ k → k < p → may k 0)
    (hc : s.Fits may ∨ ∃ i, a = .openSave i) : t.Fits may := by
  cases a <;> simp only [act] at h
  · split at h
    · injection h with h
      subst h
      intro c e
      injection e with e
      subst e
      intro i b hb
      simp at hb
    · cases h
  · have hc : s.Fits may := hc.resolve_right (by rintro ⟨_, e⟩; cases e)
    split at h
    · rename_i t' p c hx hs
      split at h
      · injection h with h
        subst h
        intro c' e
        injection e with e
        subst e
        exact atPlaces_write (hc c hs) (ht _ (List.mem_of_getElem? hx)) (hz _ _ _ _ hx hs)
      · cases h
    · cases h
  · have hc : s.Fits may := hc.resolve_right (by rintro ⟨_, e⟩; cases e)
    split at h
    · injection h with h
      subst h
      exact hc
    · cases h
  · have hc : s.Fits may := hc.resolve_right (by rintro ⟨_, e⟩; cases e)
    split at h
    · split at h
      · injection h with h
        subst h
        exact hc
      · cases h
    · cases h

/-- One step keeps what a call has read. -/
theorem act_got {may : Nat → Byte → Prop} {s t : SharedFile} {a : PartAct} (h : s.act a = some t) (hc : s.Fits may) {j : Nat}
    (hg : s.GotFits may j) : t.GotFits may j := by
  rcases a with i | ⟨i, n⟩ | j' | ⟨j', n⟩ <;> simp only [act] at h
  · split at h
    · injection h with h
      subst h
      exact hg
    · cases h
  · split at h
    · split at h
      · injection h with h
        subst h
        exact hg
      · cases h
    · cases h
  · split at h
    · rename_i hl
      injection h with h
      subst h
      intro g e
      simp only [List.getElem?_set] at e
      by_cases hj : j' = j
      · subst hj
        have := (List.getElem?_eq_some_iff.1 hl).1
        simp only [if_true, this] at e
        intro i b hb
        split at e
        · simp at e
          subst e
          simp at hb
        · simp at e
      · rw [if_neg hj] at e
        exact hg g e
    · cases h
  · split at h
    · rename_i g c hl hs
      split at h
      · injection h with h
        subst h
        intro g' e
        simp only [List.getElem?_set] at e
        by_cases hj : j' = j
        · subst hj
          have := (List.getElem?_eq_some_iff.1 hl).1
          simp only [if_true, this] at e
          have hg0 := hg g (.inl hl)
          split at e
          · simp at e
            subst e
            exact hg0
          · simp at e
            subst e
            intro i b hb
            by_cases hi : i < g.length
            · rw [List.getElem?_append_left hi] at hb
              exact hg0 i b hb
            · rw [List.getElem?_append_right (by omega), List.getElem?_take] at hb
              split at hb
              · rw [List.getElem?_drop, show g.length + (i - g.length) = i by omega] at hb
                exact hc c hs i b hb
              · cases hb
        · rw [if_neg hj] at e
          exact hg g' e
      · cases h
    · cases h

theorem run_append {s t : SharedFile} {as bs : List PartAct} : s.run (as ++ bs) = some t ↔ ∃ m, s.run as = some m ∧ m.run bs = some t := by
  induction as generalizing s with
  | nil => simp [run]
  | cons a as ih =>
    rw [List.cons_append, run, run]
    cases s.act a with
    | none => simp
    | some x => exact ih

/-- Steps keep an invariant that each step keeps. -/
theorem run_inv {P : SharedFile → Prop} (hP : ∀ s t a, s.act a = some t → P s → P t) {as : List PartAct} {s t : SharedFile}
    (h : s.run as = some t) (hs : P s) : P t := by
  induction as generalizing s with
  | nil => injection h with h; subst h; exact hs
  | cons a as ih =>
    rw [run] at h
    cases ha : s.act a with
    | none => rw [ha] at h; cases h
    | some x => rw [ha] at h; exact ih h (hP s x a ha hs)

/-- What a call has read when it ends, with an invariant that says which holes may be there. -/
theorem run_got {may : Nat → Byte → Prop} {P : SharedFile → Prop} (hP : ∀ s t a, s.act a = some t → P s → P t)
    (ht : ∀ s, P s → ∀ x ∈ s.savers, AtPlaces may x.text)
    (hz : ∀ s, P s → ∀ (i : Nat) (x : Str) (p : Nat) (c : Str), s.savers[i]? = some (⟨x, some p⟩ : FileSaver) → s.content = some c → ∀ k, c.length ≤ k → k < p → may k 0)
    {before after : List PartAct} {j : Nat} {s t : SharedFile} (hs : P s) (h : s.run (before ++ .openLoad j :: after) = some t)
    (hb : s.Fits may ∨ ∃ i, .openSave i ∈ before) {u : Str} (hu : t.loaders[j]? = some (.done (some u))) : AtPlaces may u := by
  obtain ⟨m, h1, h2⟩ := run_append.1 h
  have hm : m.Fits may := by
    rcases hb with hb | ⟨i, hi⟩
    · exact (run_inv (P := fun s => P s ∧ s.Fits may) (fun s t a ha hs => ⟨hP s t a ha hs.1,
        act_fits ha (ht s hs.1) (hz s hs.1) (.inl hs.2)⟩) h1 ⟨hs, hb⟩).2
    · obtain ⟨l1, l2, rfl⟩ := List.append_of_mem hi
      obtain ⟨m1, g1, g2⟩ := run_append.1 h1
      have p1 := run_inv hP g1 hs
      rw [run] at g2
      cases ha : m1.act (.openSave i) with
      | none => rw [ha] at g2; cases g2
      | some m2 =>
        rw [ha] at g2
        exact (run_inv (P := fun s => P s ∧ s.Fits may) (fun s t a ha hs => ⟨hP s t a ha hs.1,
          act_fits ha (ht s hs.1) (hz s hs.1) (.inl hs.2)⟩) g2 ⟨hP _ _ _ ha p1, act_fits ha (ht _ p1) (hz _ p1) (.inr ⟨i, rfl⟩)⟩).2
  have pm := run_inv hP h1 hs
  rw [run] at h2
  cases ha : m.act (.openLoad j) with
  | none => rw [ha] at h2; cases h2
  | some m2 =>
    rw [ha] at h2
    have g2 : m2.GotFits may j := by
      unfold act at ha
      dsimp only at ha
      split at ha
      · rename_i hl
        injection ha with ha
        subst ha
        have hlt := (List.getElem?_eq_some_iff.1 hl).1
        intro g e i b hb'
        simp only [List.getElem?_set, if_true, hlt] at e
        split at e
        · simp at e
          subst e
          simp at hb'
        · simp at e
      · cases ha
    have f2 : m2.Fits may := act_fits ha (ht _ pm) (hz _ pm) (.inl hm)
    exact (run_inv (P := fun s => P s ∧ s.Fits may ∧ s.GotFits may j) (fun s t a ha hs => ⟨hP s t a ha hs.1,
        act_fits ha (ht s hs.1) (hz s hs.1) (.inl hs.2.1), act_got ha hs.2.1 hs.2.2⟩) h2 ⟨hP _ _ _ ha pm, f2, g2⟩).2.2 u (.inr hu)

end SharedFile

end Flut
