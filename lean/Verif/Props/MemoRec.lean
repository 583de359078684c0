import Verif.Proofs.MemoRec
import Verif.Model.FloatVec

/-!
# C142: `memoize` of a function that calls itself
-/

namespace Flut

open Spec MemoRec

variable {A R : Type}

/-- A new `memoize`. -/
def newMemo : MemoRec.State A R := ⟨[], []⟩

theorem newMemo_sound (f : A → Body A R) : Sound f newMemo := fun x hx => by simp [newMemo] at hx

/-- C142. Whatever calls are made of a memoized function, each that ends gives the result, or throws what, the function gives without memory. -/
theorem C142_results (eqv : A → A → Bool) (f : A → Body A R) (hf : Respects eqv f) (n : Nat) (as : List A) :
    (callAll eqv f n as newMemo).1.length = as.length ∧
    ∀ (i : Nat) a o, as[i]? = some a → (callAll eqv f n as newMemo).1[i]? = some o → o = .diverges ∨ Gives f a o := by
  suffices h : ∀ s, Sound f s → (callAll eqv f n as s).1.length = as.length ∧
      ∀ (i : Nat) a o, as[i]? = some a → (callAll eqv f n as s).1[i]? = some o → o = .diverges ∨ Gives f a o from h _ (newMemo_sound f)
  induction as with
  | nil => intro s _; exact ⟨rfl, fun i a o h => by simp at h⟩
  | cons a as ih =>
    intro s hs
    rcases h1 : call eqv f n a s with ⟨x, s1⟩
    obtain ⟨h2, h3⟩ := call_sound hf n a s x s1 hs h1
    obtain ⟨h4, h5⟩ := ih s1 h2
    simp only [callAll, h1]
    refine ⟨by simp [h4], fun i b o hi ho => ?_⟩
    cases i with
    | zero =>
      simp at hi ho
      subst hi ho
      exact h3
    | succ i => exact h5 i b o (by simpa using hi) (by simpa using ho)

/-- C142. If the function without memory ends for every argument that is asked for, so does the memoized one. -/
theorem C142_ends (eqv : A → A → Bool) (f : A → Body A R) (hf : Respects eqv f) (as : List A) (has : ∀ a ∈ as, ∃ o, Gives f a o) :
    ∃ n, ∀ m, n ≤ m → ∀ o ∈ (callAll eqv f m as newMemo).1, o ≠ .diverges := by
  have hb : ∃ n, ∀ a ∈ as, direct f n a ≠ .diverges := by
    induction as with
    | nil => exact ⟨0, fun a h => by simp at h⟩
    | cons a as ih =>
      obtain ⟨n, hn⟩ := ih fun b hb => has b (by simp [hb])
      obtain ⟨o, h1, k, h2⟩ := has a (by simp)
      refine ⟨max n k, fun b hb => ?_⟩
      rcases List.mem_cons.1 hb with rfl | hb
      · rw [direct_mono (Nat.le_max_right n k) b (by rw [h2]; exact h1), h2]
        exact h1
      · rw [direct_mono (Nat.le_max_left n k) b (hn b hb)]
        exact hn b hb
  obtain ⟨n, hn⟩ := hb
  refine ⟨n, fun m hm => ?_⟩
  suffices h : ∀ s, Sound f s → ∀ o ∈ (callAll eqv f m as s).1, o ≠ .diverges from h _ (newMemo_sound f)
  clear has
  induction as with
  | nil => intro s _ o ho; simp [callAll] at ho
  | cons a as ih =>
    intro s hs o ho
    have h0 := call_ends hf n m hm a s hs (hn a (by simp))
    rcases h1 : call eqv f m a s with ⟨x, s1⟩
    rw [h1] at h0
    simp only [callAll, h1] at ho
    rcases List.mem_cons.1 ho with rfl | ho
    · exact h0
    · exact ih (fun b hb => hn b (by simp [hb])) s1 (call_sound hf m a s x s1 hs h1).1 o ho

/-- C142. If no call throws, the function is called at most once with each argument, also by itself, and every argument that is asked for is equivalent to one of these. -/
theorem C142_once (eqv : A → A → Bool) (f : A → Body A R) (hf : Respects eqv f) (n : Nat) (as : List A)
    (hok : ∀ o ∈ (callAll eqv f n as newMemo).1, ∃ r, o = .ok r) :
    (callAll eqv f n as newMemo).2.calls.Nodup ∧ ∀ a ∈ as, ∃ c ∈ (callAll eqv f n as newMemo).2.calls, eqv c a := by
  have main : ∀ s : MemoRec.State A R, Sound f s → s.calls.Nodup → (∀ c ∈ s.calls, find eqv c s.mem ≠ none) → (∀ x ∈ s.mem, x.1 ∈ s.calls) →
      (∀ o ∈ (callAll eqv f n as s).1, ∃ r, o = .ok r) →
      (callAll eqv f n as s).2.calls.Nodup ∧ (∀ a, a ∈ as ∨ find eqv a s.mem ≠ none → find eqv a (callAll eqv f n as s).2.mem ≠ none) ∧
        ∀ x ∈ (callAll eqv f n as s).2.mem, x.1 ∈ (callAll eqv f n as s).2.calls := by
    clear hok
    induction as with
    | nil => intro s _ h2 _ h4 _; exact ⟨h2, fun a h => h.resolve_left (by simp), h4⟩
    | cons a as ih =>
      intro s hs h2 h3 h4 hok
      rcases h1 : call eqv f n a s with ⟨x, s1⟩
      simp only [callAll, h1] at hok ⊢
      obtain ⟨r, rfl⟩ := hok x (by simp)
      obtain ⟨h5, h6⟩ := call_sound hf n a s _ s1 hs h1
      obtain ⟨-, k, hk⟩ := h6.resolve_left (by intro e; cases e)
      have ho := call_once hf k n a s r s1 hs (fun c hc => .inl (h3 c hc)) (by rw [hk]; intro e; cases e) h1
      have ha : find eqv a s1.mem ≠ none := by
        cases n with
        | zero => cases h1
        | succ n =>
          rw [call] at h1
          cases hr : find eqv a s.mem with
          | some q => exact ho.grows a (by rw [hr]; simp)
          | none =>
            rw [hr] at h1
            simp only at h1
            rcases h7 : exec (call eqv f n) (f a) { s with calls := s.calls ++ [a] } with ⟨y, s2⟩
            rw [h7] at h1
            cases y <;> cases h1
            simp only
            rw [find_set_self hf.refl]
            simp
      obtain ⟨h8, h9, h10⟩ := ih s1 h5 (ho.nodup h2) (fun c hc => by
        rcases ho.fresh c hc with h | h
        · exact ho.grows c (h3 c h)
        · exact h) (ho.keys h4) (fun o hm => hok o (by simp [hm]))
      refine ⟨h8, fun b hb => ?_, h10⟩
      rcases hb with hb | hb
      · rcases List.mem_cons.1 hb with rfl | hb
        · exact h9 b (.inr ha)
        · exact h9 b (.inl hb)
      · exact h9 b (.inr (ho.grows b hb))
  obtain ⟨h1, h2, h3⟩ := main newMemo (newMemo_sound f) (by simp [newMemo]) (by simp [newMemo]) (by simp [newMemo]) hok
  refine ⟨h1, fun a ha => ?_⟩
  have h4 := h2 a (.inl ha)
  cases h5 : find eqv a (callAll eqv f n as newMemo).2.mem with
  | none => exact (h4 h5).elim
  | some r =>
    obtain ⟨k, h6, h7⟩ := find_some h5
    exact ⟨k, h3 _ h6, h7⟩

/-! ### Examples -/

/-- The numbers of Fibonacci. -/
def fibBody (n : Nat) : Body Nat Nat := if n < 2 then .ret n else .ask (n - 1) fun a => .ask (n - 2) fun b => .ret (a + b)

/-- Equality as the equivalence. -/
theorem respects_eq [DecidableEq A] (f : A → Body A R) : Respects (fun a b => decide (a = b)) f :=
  ⟨fun a => by simp, fun a b h => by simpa using (of_decide_eq_true h).symm, fun a b c h h' => by simpa using (of_decide_eq_true h).trans (of_decide_eq_true h'),
    fun a b h o => by rw [of_decide_eq_true h]; exact id⟩

/-- Fibonacci's numbers end for every argument. -/
example (n : Nat) : ∃ o, Gives fibBody n o := by
  have h : ∀ n k, k ≤ n → ∃ r, direct fibBody (n + 1) k = .ok r := by
    intro n
    induction n with
    | zero =>
      intro k hk
      obtain rfl : k = 0 := by omega
      exact ⟨0, rfl⟩
    | succ n ih =>
      intro k hk
      rw [direct, fibBody]
      split
      · exact ⟨k, rfl⟩
      · obtain ⟨r, h1⟩ := ih (k - 1) (by omega)
        obtain ⟨q, h2⟩ := ih (k - 2) (by omega)
        exact ⟨r + q, by simp only [answers, h1, h2, Res.bind_ok]⟩
  obtain ⟨r, h1⟩ := h n n (Nat.le_refl n)
  exact ⟨.ok r, (by intro e; cases e), _, h1⟩

/-- Twenty calls for the twentieth, none for the fifteenth after it. -/
example : (callAll (fun a b => decide (a = b)) fibBody 30 [20, 15, 21] newMemo).1 = [.ok 6765, .ok 610, .ok 10946] ∧
    (callAll (fun a b => decide (a = b)) fibBody 30 [20, 15, 21] newMemo).2.calls
      = [20, 19, 18, 17, 16, 15, 14, 13, 12, 11, 10, 9, 8, 7, 6, 5, 4, 3, 2, 1, 0, 21] := by decide +kernel

/-- What throws is not remembered: with `f( n )` that throws for 0 and else is `f( n - 1 )`, each call calls it again. -/
example : (callAll (fun a b => decide (a = b)) (fun n : Nat => if n = 0 then .fail .flutError else .ask (n - 1) (.ret : Nat → _)) 30 [2, 2] newMemo).1
      = [.throws .flutError, .throws .flutError] ∧
    (callAll (fun a b => decide (a = b)) (fun n : Nat => if n = 0 then .fail .flutError else .ask (n - 1) (.ret : Nat → _)) 30 [2, 2] newMemo).2.calls
      = [2, 1, 0, 2, 1, 0] := by decide +kernel

/-- C142 fails where equivalent arguments have different results: `1 / x` for `0.0` and then for `-0.0`, which `std::map` takes to be the same. -/
theorem C142_zero_refuted : ∃ (f : Flt → Body Flt Flt) (as : List Flt) (o : Res Flt), (∀ a ∈ as, a.eq a) ∧ (callAll Flt.eq f 1 as newMemo).1[1]? = some o ∧
    ∃ a, as[1]? = some a ∧ o ≠ .diverges ∧ ¬ Gives f a o := by
  refine ⟨fun x => .ret (Fmt.double.div (.fin false 1) x), [.fin false 0, .fin true 0], .ok (.inf false), by decide +kernel, by decide +kernel, .fin true 0, rfl,
    (by intro e; cases e), fun h => ?_⟩
  have h2 : Gives (fun x => .ret (Fmt.double.div (.fin false 1) x)) (.fin true 0) (.ok (.inf true)) := ⟨(by intro e; cases e), 1, by decide +kernel⟩
  have := gives_unique h h2
  cases this

end Flut
