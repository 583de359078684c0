import Verif.Spec.MemoRec

/-!
# Lemmas about `memoize` of a function that calls itself
-/

namespace Flut.MemoRec

open Spec

variable {A R : Type} {eqv : A → A → Bool} {f : A → Body A R}

theorem answers_mono {g g' : A → Res R} (h : ∀ a, g a ≠ .diverges → g' a = g a) (b : Body A R) : answers g b ≠ .diverges → answers g' b = answers g b := by
  induction b with
  | ret r => intro _; rfl
  | fail e => intro _; rfl
  | ask a k ih =>
    intro hd
    simp only [answers] at hd ⊢
    have hg : g a ≠ .diverges := by
      intro e
      rw [e] at hd
      exact hd rfl
    rw [h a hg]
    cases hr : g a with
    | ok r =>
      rw [hr] at hd
      exact ih r hd
    | throws e => rfl
    | ub => rfl
    | diverges => exact (hg hr).elim

theorem direct_succ (n : Nat) : ∀ a, direct f n a ≠ .diverges → direct f (n + 1) a = direct f n a := by
  induction n with
  | zero => intro a h; exact (h rfl).elim
  | succ n ih => intro a h; exact answers_mono ih (f a) h

theorem direct_mono {n m : Nat} (h : n ≤ m) (a : A) (hd : direct f n a ≠ .diverges) : direct f m a = direct f n a := by
  induction h with
  | refl => rfl
  | step _ ih => rw [direct_succ _ _ (by rw [ih]; exact hd), ih]

theorem gives_unique {a : A} {o o' : Res R} (h : Gives f a o) (h' : Gives f a o') : o = o' := by
  obtain ⟨h1, n, h2⟩ := h
  obtain ⟨h3, m, h4⟩ := h'
  rcases Nat.le_total n m with hle | hle
  · rw [← h4, direct_mono hle a (by rw [h2]; exact h1), h2]
  · rw [← h2, direct_mono hle a (by rw [h4]; exact h3), h4]

theorem direct_not_ub (n : Nat) : ∀ a, direct f n a ≠ .ub := by
  induction n with
  | zero => intro a h; cases h
  | succ n ih =>
    intro a
    rw [direct]
    generalize f a = b
    induction b with
    | ret r => intro h; cases h
    | fail e => intro h; cases h
    | ask a k ihk =>
      intro h
      simp only [answers] at h
      cases hr : direct f n a with
      | ok r => rw [hr] at h; exact ihk r h
      | throws e => rw [hr] at h; cases h
      | ub => exact ih a hr
      | diverges => rw [hr] at h; cases h

/-- A body ends with a result. -/
def Ends (f : A → Body A R) (b : Body A R) (o : Res R) : Prop := o ≠ .diverges ∧ ∃ n, answers (direct f n) b = o

theorem gives_of_ends {a : A} {o : Res R} (h : Ends f (f a) o) : Gives f a o := by
  obtain ⟨h1, n, h2⟩ := h
  exact ⟨h1, n + 1, h2⟩

theorem ends_ask {a : A} {k : R → Body A R} {r : R} {o : Res R} (h : Gives f a (.ok r)) (h' : Ends f (k r) o) : Ends f (.ask a k) o := by
  obtain ⟨-, n, h2⟩ := h
  obtain ⟨h3, m, h4⟩ := h'
  refine ⟨h3, max n m, ?_⟩
  simp only [answers]
  rw [direct_mono (Nat.le_max_left n m) a (by rw [h2]; intro e; cases e), h2]
  change answers _ (k r) = o
  rw [answers_mono (fun a => direct_mono (Nat.le_max_right n m) a) (k r) (by rw [h4]; exact h3), h4]

theorem ends_ask_fail {a : A} {k : R → Body A R} {o : Res R} (h : Gives f a o) (hno : ∀ r, o ≠ .ok r) : Ends f (.ask a k) o := by
  obtain ⟨h1, n, h2⟩ := h
  refine ⟨h1, n, ?_⟩
  simp only [answers, h2]
  cases o with
  | ok r => exact (hno r rfl).elim
  | throws e => rfl
  | ub => rfl
  | diverges => rfl

/-! ### The map -/

theorem find_some {a : A} {r : R} {m : List (A × R)} (h : find eqv a m = some r) : ∃ k, (k, r) ∈ m ∧ eqv k a := by
  induction m with
  | nil => cases h
  | cons x m ih =>
    obtain ⟨k, q⟩ := x
    rw [find] at h
    split at h
    · cases h
      exact ⟨k, by simp, by assumption⟩
    · obtain ⟨k', h1, h2⟩ := ih h
      exact ⟨k', by simp [h1], h2⟩

theorem mem_set {a : A} {r : R} {m : List (A × R)} {x : A × R} (h : x ∈ set eqv a r m) : x ∈ m ∨ x = (a, r) ∨ (x.2 = r ∧ eqv x.1 a ∧ ∃ q, (x.1, q) ∈ m) := by
  induction m with
  | nil => simp [set] at h; exact .inr (.inl h)
  | cons y m ih =>
    obtain ⟨k, q⟩ := y
    rw [set] at h
    split at h
    · rcases List.mem_cons.1 h with h | h
      · subst h
        exact .inr (.inr ⟨rfl, by assumption, q, by simp⟩)
      · exact .inl (by simp [h])
    · rcases List.mem_cons.1 h with h | h
      · exact .inl (by simp [h])
      · rcases ih h with h | h | ⟨h1, h2, p, h3⟩
        · exact .inl (by simp [h])
        · exact .inr (.inl h)
        · exact .inr (.inr ⟨h1, h2, p, by simp [h3]⟩)

theorem find_set_self (hrefl : ∀ a, eqv a a) (a : A) (r : R) (m : List (A × R)) : find eqv a (set eqv a r m) = some r := by
  induction m with
  | nil => simp [set, find, hrefl]
  | cons x m ih =>
    obtain ⟨k, q⟩ := x
    rw [set]
    split
    · rw [find, if_pos (by assumption)]
    · rw [find, if_neg (by assumption), ih]

theorem find_set_ne_none (a c : A) (r : R) (m : List (A × R)) (h : find eqv c m ≠ none) : find eqv c (set eqv a r m) ≠ none := by
  induction m with
  | nil => exact (h rfl).elim
  | cons x m ih =>
    obtain ⟨k, q⟩ := x
    rw [find] at h
    rw [set]
    split
    · rw [find]
      split
      · simp
      · rename_i h1
        rw [if_neg h1] at h
        exact h
    · rw [find]
      split
      · simp
      · rename_i h1
        rw [if_neg h1] at h
        exact ih h

/-- What is in the map are results of the function. -/
def Sound (f : A → Body A R) (s : State A R) : Prop := ∀ x ∈ s.mem, Gives f x.1 (.ok x.2)

theorem Sound.find (hf : Respects eqv f) {s : State A R} (h : Sound f s) {a : A} {r : R} (hr : find eqv a s.mem = some r) : Gives f a (.ok r) := by
  obtain ⟨k, h1, h2⟩ := find_some hr
  exact hf.same k a h2 _ (h _ h1)

theorem Sound.set (hf : Respects eqv f) {s : State A R} (h : Sound f s) {a : A} {r : R} (hr : Gives f a (.ok r)) :
    Sound f { s with mem := set eqv a r s.mem } := by
  intro x hx
  rcases mem_set hx with h1 | h1 | ⟨h1, h2, -⟩
  · exact h x h1
  · rw [h1]; exact hr
  · rw [h1]
    exact hf.same _ _ (hf.symm _ _ h2) _ hr

theorem exec_sound {call : A → State A R → Res R × State A R}
    (hc : ∀ a s o s', Sound f s → call a s = (o, s') → Sound f s' ∧ (o = .diverges ∨ Gives f a o)) (b : Body A R) :
    ∀ s o s', Sound f s → exec call b s = (o, s') → Sound f s' ∧ (o = .diverges ∨ Ends f b o) := by
  induction b with
  | ret r =>
    intro s o s' hs h
    cases h
    exact ⟨hs, .inr ⟨(by intro e; cases e), 0, rfl⟩⟩
  | fail e =>
    intro s o s' hs h
    cases h
    exact ⟨hs, .inr ⟨(by intro e; cases e), 0, rfl⟩⟩
  | ask a k ih =>
    intro s o s' hs h
    rw [exec] at h
    rcases h1 : call a s with ⟨x, s1⟩
    obtain ⟨h2, h3⟩ := hc a s x s1 hs h1
    rw [h1] at h
    cases x with
    | ok r =>
      simp only at h
      obtain ⟨h4, h5⟩ := ih r s1 o s' h2 h
      refine ⟨h4, h5.imp id fun h5 => ?_⟩
      rcases h3 with h3 | h3
      · cases h3
      · exact ends_ask h3 h5
    | throws e =>
      cases h
      exact ⟨h2, h3.imp id fun h3 => ends_ask_fail h3 (by intro r e; cases e)⟩
    | ub =>
      cases h
      exact ⟨h2, h3.imp id fun h3 => ends_ask_fail h3 (by intro r e; cases e)⟩
    | diverges =>
      cases h
      exact ⟨h2, .inl rfl⟩

theorem call_sound (hf : Respects eqv f) (n : Nat) :
    ∀ a s o s', Sound f s → call eqv f n a s = (o, s') → Sound f s' ∧ (o = .diverges ∨ Gives f a o) := by
  induction n with
  | zero =>
    intro a s o s' hs h
    cases h
    exact ⟨hs, .inl rfl⟩
  | succ n ih =>
    intro a s o s' hs h
    rw [call] at h
    cases hr : find eqv a s.mem with
    | some r =>
      rw [hr] at h
      cases h
      exact ⟨hs, .inr (hs.find hf hr)⟩
    | none =>
      rw [hr] at h
      simp only at h
      rcases h1 : exec (call eqv f n) (f a) { s with calls := s.calls ++ [a] } with ⟨x, s1⟩
      rw [h1] at h
      obtain ⟨h2, h3⟩ := exec_sound ih (f a) _ x s1 (by exact hs) h1
      cases x with
      | ok r =>
        cases h
        rcases h3 with h3 | h3
        · cases h3
        · exact ⟨h2.set hf (gives_of_ends h3), .inr (gives_of_ends h3)⟩
      | throws e => cases h; exact ⟨h2, h3.imp id gives_of_ends⟩
      | ub => cases h; exact ⟨h2, h3.imp id gives_of_ends⟩
      | diverges => cases h; exact ⟨h2, .inl rfl⟩

/-! ### Termination -/

theorem exec_ends {call : A → State A R → Res R × State A R} {n : Nat}
    (hc : ∀ a s o s', Sound f s → call a s = (o, s') → Sound f s' ∧ (o = .diverges ∨ Gives f a o))
    (ht : ∀ a s, Sound f s → direct f n a ≠ .diverges → (call a s).1 ≠ .diverges) (b : Body A R) :
    ∀ s, Sound f s → answers (direct f n) b ≠ .diverges → (exec call b s).1 ≠ .diverges := by
  induction b with
  | ret r => intro s _ _ h; cases h
  | fail e => intro s _ _ h; cases h
  | ask a k ih =>
    intro s hs hd
    simp only [answers] at hd
    have hg : direct f n a ≠ .diverges := by
      intro e
      rw [e] at hd
      exact hd rfl
    have h0 := ht a s hs hg
    rw [exec]
    rcases h1 : call a s with ⟨x, s1⟩
    rw [h1] at h0
    obtain ⟨h2, h3⟩ := hc a s x s1 hs h1
    have h4 : x = direct f n a := gives_unique (h3.resolve_left h0) ⟨hg, n, rfl⟩
    cases x with
    | ok r =>
      rw [← h4] at hd
      exact ih r s1 h2 hd
    | throws e => intro h; cases h
    | ub => intro h; cases h
    | diverges => exact (h0 rfl).elim

theorem call_ends (hf : Respects eqv f) (n : Nat) : ∀ m, n ≤ m → ∀ a s, Sound f s → direct f n a ≠ .diverges → (call eqv f m a s).1 ≠ .diverges := by
  induction n with
  | zero => intro m _ a s _ h; exact (h rfl).elim
  | succ n ih =>
    intro m hm a s hs hd
    obtain ⟨m, rfl⟩ : ∃ m', m = m' + 1 := ⟨m - 1, by omega⟩
    rw [call]
    cases hr : find eqv a s.mem with
    | some r => intro h; cases h
    | none =>
      simp only
      have h0 := exec_ends (call_sound hf m) (ih m (by omega)) (f a) { s with calls := s.calls ++ [a] } (by exact hs) hd
      rcases h1 : exec (call eqv f m) (f a) { s with calls := s.calls ++ [a] } with ⟨x, s1⟩
      rw [h1] at h0
      cases x with
      | ok r => intro h; cases h
      | throws e => intro h; cases h
      | ub => intro h; cases h
      | diverges => exact (h0 rfl).elim

/-! ### How often the function is called -/

/-- From one state to a later one: no argument twice, and each of those that are new is in the map. -/
structure Once (eqv : A → A → Bool) (s s' : State A R) : Prop where
  nodup : s.calls.Nodup → s'.calls.Nodup
  grows : ∀ c, find eqv c s.mem ≠ none → find eqv c s'.mem ≠ none
  calls : ∀ c ∈ s.calls, c ∈ s'.calls
  fresh : ∀ c ∈ s'.calls, c ∈ s.calls ∨ find eqv c s'.mem ≠ none
  keys : (∀ x ∈ s.mem, x.1 ∈ s.calls) → ∀ x ∈ s'.mem, x.1 ∈ s'.calls

theorem Once.refl (s : State A R) : Once eqv s s := ⟨id, fun _ h => h, fun _ h => h, fun _ h => .inl h, id⟩

theorem Once.trans {s s' s'' : State A R} (h1 : Once eqv s s') (h2 : Once eqv s' s'') : Once eqv s s'' := by
  refine ⟨h2.nodup ∘ h1.nodup, fun c h => h2.grows c (h1.grows c h), fun c h => h2.calls c (h1.calls c h), fun c h => ?_, h2.keys ∘ h1.keys⟩
  rcases h2.fresh c h with h | h
  · exact (h1.fresh c h).imp id (h2.grows c)
  · exact .inr h

/-- Those that were called and are not in the map do not end within `n`. -/
def Pending (eqv : A → A → Bool) (f : A → Body A R) (n : Nat) (s : State A R) : Prop := ∀ c ∈ s.calls, find eqv c s.mem ≠ none ∨ direct f n c = .diverges

theorem Pending.once {n : Nat} {s s' : State A R} (h : Pending eqv f n s) (h1 : Once eqv s s') : Pending eqv f n s' := by
  intro c hc
  rcases h1.fresh c hc with h2 | h2
  · exact (h c h2).imp (h1.grows c) id
  · exact .inl h2

theorem exec_once {call : A → State A R → Res R × State A R} {n : Nat}
    (hc : ∀ a s o s', Sound f s → call a s = (o, s') → Sound f s' ∧ (o = .diverges ∨ Gives f a o))
    (ht : ∀ a s r s', Sound f s → Pending eqv f n s → direct f n a ≠ .diverges → call a s = (.ok r, s') → Once eqv s s') (b : Body A R) :
    ∀ s r s', Sound f s → Pending eqv f n s → answers (direct f n) b ≠ .diverges → exec call b s = (.ok r, s') → Once eqv s s' := by
  induction b with
  | ret r => intro s r' s' _ _ _ h; cases h; exact Once.refl s
  | fail e => intro s r' s' _ _ _ h; cases h
  | ask a k ih =>
    intro s r' s' hs hp hd h
    simp only [answers] at hd
    have hg : direct f n a ≠ .diverges := by
      intro e
      rw [e] at hd
      exact hd rfl
    rw [exec] at h
    rcases h1 : call a s with ⟨x, s1⟩
    rw [h1] at h
    obtain ⟨h2, h3⟩ := hc a s x s1 hs h1
    cases x with
    | ok r =>
      have h4 : .ok r = direct f n a := gives_unique (h3.resolve_left (by intro e; cases e)) ⟨hg, n, rfl⟩
      rw [← h4] at hd
      have h5 := ht a s r s1 hs hp hg h1
      exact h5.trans (ih r s1 r' s' h2 (hp.once h5) hd h)
    | throws e => cases h
    | ub => cases h
    | diverges => cases h

theorem call_once (hf : Respects eqv f) (n : Nat) : ∀ m a s r s', Sound f s → Pending eqv f n s → direct f n a ≠ .diverges →
    call eqv f m a s = (.ok r, s') → Once eqv s s' := by
  induction n with
  | zero => intro m a s r s' _ _ h; exact (h rfl).elim
  | succ n ih =>
    intro m a s r s' hs hp hd h
    have hp' : Pending eqv f n s := by
      intro c hc
      refine (hp c hc).imp id fun h => ?_
      refine Classical.byContradiction fun h2 => h2 ?_
      rw [← direct_succ n c h2, h]
    by_cases hn : direct f n a = .diverges
    · cases m with
      | zero => cases h
      | succ m =>
        rw [call] at h
        cases hr : find eqv a s.mem with
        | some q =>
          rw [hr] at h
          cases h
          exact Once.refl s
        | none =>
          rw [hr] at h
          simp only at h
          rcases h1 : exec (call eqv f m) (f a) { s with calls := s.calls ++ [a] } with ⟨x, s1⟩
          rw [h1] at h
          cases x with
          | ok q =>
            cases h
            have ha : a ∉ s.calls := by
              intro h2
              rcases hp a h2 with h3 | h3
              · exact h3 hr
              · exact hd h3
            have h2 := exec_once (eqv := eqv) (call_sound hf m) (ih m) (f a) { s with calls := s.calls ++ [a] } r s1 (by exact hs) (by
              intro c hc
              rcases List.mem_append.1 hc with hc | hc
              · exact hp' c hc
              · rw [List.mem_singleton.1 hc]
                exact .inr hn) hd h1
            refine ⟨fun h3 => ?_, fun c h3 => ?_, fun c h3 => ?_, fun c h3 => ?_, fun h3 x hx => ?_⟩
            · refine h2.nodup (List.nodup_append.2 ⟨h3, by simp, ?_⟩)
              intro x hx y hy e
              rw [List.mem_singleton.1 hy] at e
              exact ha (e ▸ hx)
            · exact find_set_ne_none _ _ _ _ (h2.grows c h3)
            · exact h2.calls c (by simp [h3])
            · rcases h2.fresh c h3 with h4 | h4
              · rcases List.mem_append.1 h4 with h4 | h4
                · exact .inl h4
                · rw [List.mem_singleton.1 h4]
                  refine .inr ?_
                  simp only
                  rw [find_set_self hf.refl]
                  simp
              · exact .inr (find_set_ne_none _ _ _ _ h4)
            · have h4 := h2.keys (fun y hy => by simp [h3 y hy])
              rcases mem_set hx with h5 | h5 | ⟨-, -, p, h5⟩
              · exact h4 x h5
              · rw [h5]
                exact h2.calls a (by simp)
              · exact h4 (x.1, p) h5
          | throws e => cases h
          | ub => cases h
          | diverges => cases h
    · exact ih m a s r s' hs hp' hn h

end Flut.MemoRec
