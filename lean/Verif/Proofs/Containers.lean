import Verif.Spec.Containers

/-! Lemmas about the containers. -/

namespace Flut

namespace FlatMap

variable {K V : Type} [DecidableEq K]

/-- Value of a key, by structural recursion. -/
def val (k : K) : FlatMap K V → Option V
  | [] => none
  | (k', v) :: r => if k' = k then some v else val k r

theorem find_none_iff (k : K) (m : FlatMap K V) : find k m = none ↔ k ∉ m.map Prod.fst := by
  induction m with
  | nil => simp [find]
  | cons a r ih =>
    obtain ⟨k', v⟩ := a
    unfold find
    by_cases h : k' = k
    · simp [h]
    · simp only [h, if_false, Option.map_eq_none_iff, ih, List.map_cons, List.mem_cons, not_or]
      constructor
      · exact fun h2 => ⟨fun h3 => h h3.symm, h2⟩
      · exact fun h2 => h2.2

theorem find_some (k : K) (m : FlatMap K V) (i : Nat) (h : find k m = some i) :
    ∃ v, m[i]? = some (k, v) ∧ val k m = some v := by
  induction m generalizing i with
  | nil => simp [find] at h
  | cons a r ih =>
    obtain ⟨k', v⟩ := a
    unfold find at h
    by_cases hk : k' = k
    · rw [if_pos hk] at h
      injection h with h
      subst h
      exact ⟨v, by simp [hk], by simp [val, hk]⟩
    · rw [if_neg hk] at h
      obtain ⟨j, hj, rfl⟩ := Option.map_eq_some_iff.1 h
      obtain ⟨w, h1, h2⟩ := ih j hj
      exact ⟨w, by simpa using h1, by simp [val, hk, h2]⟩

theorem val_none_iff (k : K) (m : FlatMap K V) : val k m = none ↔ k ∉ m.map Prod.fst := by
  rw [← find_none_iff]
  constructor
  · intro h
    cases hf : find k m with
    | none => rfl
    | some i =>
      obtain ⟨v, _, h2⟩ := find_some k m i hf
      rw [h] at h2
      cases h2
  · intro h
    induction m with
    | nil => rfl
    | cons a r ih =>
      obtain ⟨k', v⟩ := a
      unfold find at h
      by_cases hk : k' = k
      · simp [hk] at h
      · rw [if_neg hk] at h
        simp only [val, hk, if_false]
        exact ih (by simpa using h)

theorem at_eq (k : K) (m : FlatMap K V) :
    at' k m = match val k m with | none => .throws .flutError | some v => .ok v := by
  unfold at'
  cases hf : find k m with
  | none => rw [(val_none_iff k m).2 ((find_none_iff k m).1 hf)]
  | some i =>
    obtain ⟨v, h1, h2⟩ := find_some k m i hf
    rw [h2]
    simp [h1]

theorem hasKey_eq (k : K) (m : FlatMap K V) : hasKey k m = (val k m).isSome := by
  unfold hasKey
  cases hf : find k m with
  | none => rw [(val_none_iff k m).2 ((find_none_iff k m).1 hf)]; rfl
  | some i =>
    obtain ⟨v, h1, h2⟩ := find_some k m i hf
    rw [h2]; rfl

theorem count_eq (k : K) (m : FlatMap K V) (hn : (m.map Prod.fst).Nodup) :
    count k m = if (val k m).isSome then 1 else 0 := by
  induction m with
  | nil => rfl
  | cons a r ih =>
    obtain ⟨k', v⟩ := a
    simp only [List.map_cons, List.nodup_cons] at hn
    have ih := ih hn.2
    unfold count at ih ⊢
    rw [List.countP_cons, ih]
    by_cases hk : k' = k
    · subst hk
      rw [(val_none_iff k' r).2 hn.1]
      simp [val]
    · simp [val, hk]

theorem index_nil (d : V) (k : K) : index d k ([] : FlatMap K V) = (0, [(k, d)]) := rfl

theorem index_cons (d : V) (k k' : K) (v : V) (r : FlatMap K V) :
    index d k ((k', v) :: r) = if k' = k then (0, (k', v) :: r)
      else ((index d k r).1 + 1, (k', v) :: (index d k r).2) := by
  unfold index
  by_cases hk : k' = k
  · simp [find, hk]
  · cases hf : find k r <;> simp [find, hk, hf]

theorem assign_nil (d : V) (k : K) (v : V) : assign d k v ([] : FlatMap K V) = [(k, v)] := rfl

theorem assign_cons (d : V) (k : K) (v : V) (k' : K) (w : V) (r : FlatMap K V) :
    assign d k v ((k', w) :: r) = if k' = k then (k', v) :: r else (k', w) :: assign d k v r := by
  unfold assign
  rw [index_cons]
  by_cases hk : k' = k <;> simp [hk]

theorem assign_keys (d : V) (k : K) (v : V) (m : FlatMap K V) :
    (assign d k v m).map Prod.fst
      = if k ∈ m.map Prod.fst then m.map Prod.fst else m.map Prod.fst ++ [k] := by
  induction m with
  | nil => rfl
  | cons a r ih =>
    obtain ⟨k', w⟩ := a
    rw [assign_cons]
    by_cases hk : k' = k
    · simp [hk]
    · have : (k ∈ ((k', w) :: r).map Prod.fst) ↔ k ∈ r.map Prod.fst := by
        simp only [List.map_cons, List.mem_cons]
        constructor
        · rintro (h | h)
          · exact absurd h.symm hk
          · exact h
        · exact Or.inr
      simp only [hk, if_false, List.map_cons, ih]
      by_cases h : k ∈ r.map Prod.fst
      · rw [if_pos h, if_pos (by simpa using Or.inr (by simpa using h))]
      · rw [if_neg h, if_neg (fun h2 => h (this.1 (by simpa using h2)))]
        rfl

theorem assign_val (d : V) (k : K) (v : V) (m : FlatMap K V) (j : K) :
    val j (assign d k v m) = if k = j then some v else val j m := by
  induction m with
  | nil => simp [assign_nil, val]
  | cons a r ih =>
    obtain ⟨k', w⟩ := a
    rw [assign_cons]
    by_cases hk : k' = k
    · subst hk
      by_cases hj : k' = j <;> simp [val, hj]
    · rw [if_neg hk]
      by_cases hj : k' = j
      · have : ¬ k = j := fun h => hk (hj.trans h.symm)
        simp [val, hj, this]
      · simp [val, hj, ih]

theorem index_keys (d : V) (k : K) (m : FlatMap K V) :
    (index d k m).2.map Prod.fst
      = if k ∈ m.map Prod.fst then m.map Prod.fst else m.map Prod.fst ++ [k] := by
  unfold index
  cases hf : find k m with
  | none => rw [if_neg ((find_none_iff k m).1 hf)]; simp
  | some i =>
    have : k ∈ m.map Prod.fst := by
      by_cases h : k ∈ m.map Prod.fst
      · exact h
      · rw [(find_none_iff k m).2 h] at hf; cases hf
    rw [if_pos this]

theorem index_val (d : V) (k : K) (m : FlatMap K V) (j : K) :
    val j (index d k m).2 = if k = j then some ((val j m).getD d) else val j m := by
  induction m with
  | nil => simp [index_nil, val]
  | cons a r ih =>
    obtain ⟨k', w⟩ := a
    rw [index_cons]
    by_cases hk : k' = k
    · subst hk
      by_cases hj : k' = j <;> simp [val, hj]
    · rw [if_neg hk]
      by_cases hj : k' = j
      · have : ¬ k = j := fun h => hk (hj.trans h.symm)
        simp [val, hj, this]
      · simp [val, hj, ih]

theorem eraseKey_cons (k k' : K) (v : V) (r : FlatMap K V) :
    eraseKey k ((k', v) :: r) = if k' = k then .ok r
      else (eraseKey k r).map ((k', v) :: ·) := by
  unfold eraseKey
  by_cases hk : k' = k
  · simp [find, hk]
  · cases hf : find k r <;> simp [find, hk, hf, Res.map]

theorem eraseKey_ok (k : K) (m : FlatMap K V) (hn : (m.map Prod.fst).Nodup) (hk : val k m ≠ none) :
    ∃ m', eraseKey k m = .ok m' ∧ m'.map Prod.fst = (m.map Prod.fst).filter (· ≠ k) ∧
      ∀ j, val j m' = if k = j then none else val j m := by
  induction m with
  | nil => exact absurd rfl hk
  | cons a r ih =>
    obtain ⟨k', w⟩ := a
    rw [eraseKey_cons]
    simp only [List.map_cons, List.nodup_cons] at hn
    by_cases h : k' = k
    · subst h
      refine ⟨r, if_pos rfl, ?_, ?_⟩
      · simp only [List.map_cons]
        rw [List.filter_cons_of_neg (by simp), List.filter_eq_self.2]
        intro x hx
        simp only [ne_eq, decide_not, Bool.not_eq_eq_eq_not, Bool.not_true, decide_eq_false_iff_not]
        exact fun h2 => hn.1 (h2 ▸ hx)
      · intro j
        by_cases hj : k' = j
        · rw [if_pos hj, ← hj]
          exact (val_none_iff k' r).2 hn.1
        · simp [val, hj]
    · rw [if_neg h]
      have hk2 : val k r ≠ none := by
        simpa [val, h] using hk
      obtain ⟨m', h1, h2, h3⟩ := ih hn.2 hk2
      refine ⟨(k', w) :: m', by rw [h1]; rfl, ?_, ?_⟩
      · simp only [List.map_cons]
        rw [List.filter_cons_of_pos (by simpa using h), h2]
      · intro j
        by_cases hj : k' = j
        · have : ¬ k = j := fun h5 => h (hj.trans h5.symm)
          simp [val, hj, this]
        · simp [val, hj, h3]

theorem runAll_append (d : V) (a b : List (Op K V)) (m : FlatMap K V) :
    runAll d (a ++ b) m = (runAll d a m >>= runAll d b) := by
  induction a generalizing m with
  | nil => rfl
  | cons op ops ih =>
    simp only [List.cons_append, runAll]
    cases run d op m <;> simp [ih]

/-- Everything observable of a map agrees with the abstract map. -/
structure Agrees (d : V) (ops : List (Op K V)) (m : FlatMap K V) : Prop where
  keys : m.map Prod.fst = MapSpec.order ops
  nodup : (m.map Prod.fst).Nodup
  vals : ∀ k, val k m = MapSpec.value d k ops

theorem order_nodup_step (ks : List K) (op : Op K V) (h : ks.Nodup) :
    (MapSpec.orderStep ks op).Nodup := by
  cases op with
  | assign k v =>
    simp only [MapSpec.orderStep]
    by_cases hk : k ∈ ks
    · rw [if_pos hk]; exact h
    · rw [if_neg hk]
      rw [List.nodup_append]
      refine ⟨h, by simp, ?_⟩
      intro a ha b hb hab
      simp only [List.mem_singleton] at hb
      exact hk (hb ▸ hab ▸ ha)
  | touch k =>
    simp only [MapSpec.orderStep]
    by_cases hk : k ∈ ks
    · rw [if_pos hk]; exact h
    · rw [if_neg hk]
      rw [List.nodup_append]
      refine ⟨h, by simp, ?_⟩
      intro a ha b hb hab
      simp only [List.mem_singleton] at hb
      exact hk (hb ▸ hab ▸ ha)
  | erase k => exact List.Pairwise.filter _ h
  | clear => exact List.nodup_nil

theorem run_agrees (d : V) (pre : List (Op K V)) (op : Op K V) (m : FlatMap K V)
    (h : Agrees d pre m) (hl : ∀ k, op = .erase k → MapSpec.value d k pre ≠ none) :
    ∃ m', run d op m = .ok m' ∧ Agrees d (pre ++ [op]) m' := by
  have hord : MapSpec.order (pre ++ [op]) = MapSpec.orderStep (MapSpec.order pre) op := by
    simp [MapSpec.order]
  have hval : ∀ k, MapSpec.value d k (pre ++ [op]) = MapSpec.step d k (MapSpec.value d k pre) op := by
    intro k; simp [MapSpec.value]
  have key : ∀ m' : FlatMap K V, m'.map Prod.fst = MapSpec.orderStep (m.map Prod.fst) op →
      (∀ k, val k m' = MapSpec.step d k (val k m) op) → Agrees d (pre ++ [op]) m' := by
    intro m' h1 h2
    refine ⟨?_, ?_, ?_⟩
    · rw [hord, h1, h.keys]
    · rw [h1]; exact order_nodup_step _ _ h.nodup
    · intro k; rw [hval, h2, h.vals]
  cases op with
  | assign k v => exact ⟨_, rfl, key _ (assign_keys d k v m) (fun j => assign_val d k v m j)⟩
  | touch k => exact ⟨_, rfl, key _ (index_keys d k m) (fun j => index_val d k m j)⟩
  | erase k =>
    obtain ⟨m', h1, h2, h3⟩ := eraseKey_ok k m h.nodup (by rw [h.vals]; exact hl k rfl)
    exact ⟨m', h1, key _ h2 h3⟩
  | clear => exact ⟨[], rfl, key _ rfl (fun _ => rfl)⟩

theorem runAll_agrees (d : V) (ops pre : List (Op K V)) (m : FlatMap K V) (h : Agrees d pre m)
    (hl : MapSpec.Legal d (pre ++ ops)) :
    ∃ m', runAll d ops m = .ok m' ∧ Agrees d (pre ++ ops) m' := by
  induction ops generalizing pre m with
  | nil => exact ⟨m, rfl, by simpa using h⟩
  | cons op ops ih =>
    obtain ⟨m1, h1, h2⟩ := run_agrees d pre op m h (by
      intro k hk
      exact hl pre k ops (by rw [hk]))
    obtain ⟨m2, h3, h4⟩ := ih (pre ++ [op]) m1 h2 (by simpa using hl)
    refine ⟨m2, ?_, by simpa using h4⟩
    simp [runAll, h1, h3]

end FlatMap

end Flut
