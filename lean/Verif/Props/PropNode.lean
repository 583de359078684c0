import Verif.Proofs.PropApi

/-!
# Properties of `prop_node`

C20 set and get, C21 delimited keys, C22 push_back and select, C23 equality, C24 access flags, C25 merging,
C28 get with alternatives. Specifications are in `Spec/PropNode.lean` and `Spec/PropText.lean`.
-/

namespace Flut

open Spec PN

/-! ## C20: an ordered map on first keys -/

/-- After `set(k, v)` the child `k` has the value and children of `v`. -/
theorem C20_set_get (k : Str) (v t : PN) : ∃ c, firstChild k (kids (set k v t)) = some c ∧ SameTree c v := by
  obtain ⟨a, val, cs⟩ := t
  rcases set_cases k v a val cs with ⟨h1, h2⟩ | ⟨pre, n, post, rfl, h1, h2⟩
  · rw [h2]
    exact ⟨v.clear, firstChild_at h1 _ _, sameTree_clear v⟩
  · rw [h2]
    exact ⟨_, firstChild_at h1 _ _, sameTree_assign n v⟩

/-- Nothing else changes: the content of the node is as before except for the first child with key `k`, which is replaced in
place, or appended when there was none. -/
theorem C20_set_frame (k : Str) (v t : PN) :
    (k ∉ (kids t).map Prod.fst ∧ SameTree (set k v t) (.mk false t.value (kids t ++ [(k, v)]))) ∨
     ∃ pre n post, kids t = pre ++ (k, n) :: post ∧ k ∉ pre.map Prod.fst ∧
      SameTree (set k v t) (.mk false t.value (pre ++ (k, v) :: post)) := by
  obtain ⟨a, val, cs⟩ := t
  rcases set_cases k v a val cs with ⟨h1, h2⟩ | ⟨pre, n, post, rfl, h1, h2⟩
  · rw [h2]
    refine Or.inl ⟨h1, (sameTree_iff _ _).2 ?_⟩
    simp [PN.clear, PN.clearAll_eq, kids, value, clear_clear]
  · rw [h2]
    refine Or.inr ⟨pre, n, post, rfl, h1, (sameTree_iff _ _).2 ?_⟩
    simp [PN.clear, PN.clearAll_eq, value, clear_assign]

/-- In particular the first child of every other key has the content that it had. -/
theorem C20_set_other (k k' : Str) (v t : PN) (h : k' ≠ k) :
    SameOpt (firstChild k' (kids (set k v t))) (firstChild k' (kids t)) := by
  rw [sameOpt_iff]
  rcases C20_set_frame k v t with ⟨_, h2⟩ | ⟨pre, n, post, h1, _, h2⟩
  · rw [sameTree_first h2 k', kids, firstChild_append]; simp [firstChild, Ne.symm h]
  · rw [sameTree_first h2 k', h1, kids, firstChild_other h _ _ _ _]

/-- `has_key` tells whether there is a child with the key. -/
theorem C20_has_key (k : Str) (t : PN) : (hasKey k t).1 = true ↔ firstChild k (kids t) ≠ none := by
  obtain ⟨a, val, cs⟩ := t
  rcases findIdx_cases k cs with ⟨h1, h2⟩ | ⟨pre, n, post, rfl, h1, h2⟩
  · simp [hasKey, h1, kids, firstChild_none.2 h2]
  · simp [hasKey, h2, kids, firstChild_at h1]

/-- `get_child(key)` throws exactly if the key is absent, and otherwise returns (a reference to) the first child with
that key. -/
theorem C20_get_child (k : Str) (t : PN) :
    (firstChild k (kids t) = none ∧ getChild k t = .throws .flutError) ∨
    ∃ i c t', firstChild k (kids t) = some c ∧ getChild k t = .ok (i, t') ∧ (kids t')[i]? = some (k, c) ∧
      kids t' = kids t ∧ t'.value = t.value := by
  obtain ⟨a, val, cs⟩ := t
  rcases findIdx_cases k cs with ⟨h1, h2⟩ | ⟨pre, n, post, rfl, h1, h2⟩
  · left; exact ⟨firstChild_none.2 h2, by simp [getChild, h1]⟩
  · right; exact ⟨pre.length, n, .mk true val _, firstChild_at h1 _ _, by simp only [getChild, h2], by simp [kids], rfl, rfl⟩

/-- `get<T>(key)` converts the first child with the key, and throws if there is none. -/
theorem C20_get {α : Type} (cast : PN → Res α) (k : Str) (t : PN) :
    (firstChild k (kids t) = none ∧ getKeyed cast k t = .throws .flutError) ∨
    ∃ c t', firstChild k (kids t) = some c ∧ SameTree t' t ∧
      getKeyed cast k t = (do let x ← cast c.clear; .ok (x, t')) := by
  obtain ⟨a, val, cs⟩ := t
  rcases getKeyed_spec cast k a val cs with h | ⟨pre, n, post, rfl, h1, h2, h3⟩
  · exact Or.inl h
  · exact Or.inr ⟨n, _, h2,
      sameTree_symm (moreAccessed_sameTree (moreAccessed_at pre k post (moreAccessed_access n))), h3⟩

/-- `try_get_child(key)` returns null exactly if the key is absent, and otherwise the first child with that key. -/
theorem C20_try_get_child (k : Str) (t : PN) :
    (firstChild k (kids t) = none ∧ (tryGetChild k t).1 = none) ∨
    ∃ i c d, firstChild k (kids t) = some c ∧ (tryGetChild k t).1 = some i ∧
      (kids (tryGetChild k t).2)[i]? = some (k, d) ∧ SameTree d c := by
  obtain ⟨a, val, cs⟩ := t
  rcases findIdx_cases k cs with ⟨h1, h2⟩ | ⟨pre, n, post, rfl, h1, h2⟩
  · left; exact ⟨firstChild_none.2 h2, by simp [tryGetChild, h1]⟩
  · right
    refine ⟨pre.length, n, n.access, firstChild_at h1 _ _, by simp [tryGetChild, h2], ?_, ?_⟩
    · simp [tryGetChild, h2, modifyAt_at, kids]
    · exact sameTree_symm (moreAccessed_sameTree (moreAccessed_access n))

/-- `pn[key]` on a non-const node returns the first child with the key, or appends an empty one. -/
theorem C20_get_or_add (k : Str) (t : PN) : ∃ i d, (kids (getOrAddChild k t).2)[i]? = some (k, d) ∧
    (getOrAddChild k t).1 = i ∧ (getOrAddChild k t).2.value = t.value ∧
    ((firstChild k (kids t) = none ∧ d = .mk false [] [] ∧ SameTree (getOrAddChild k t).2 (.mk false t.value (kids t ++ [(k, d)]))) ∨
     ∃ c, firstChild k (kids t) = some c ∧ SameTree d c ∧ SameTree (getOrAddChild k t).2 t) := by
  obtain ⟨a, val, cs⟩ := t
  rcases getOrAdd_cases k a val cs with ⟨h1, h2⟩ | ⟨pre, n, post, rfl, h1, h2⟩
  · rw [h2]
    exact ⟨cs.length, nil, by simp [kids], rfl, rfl, Or.inl ⟨firstChild_none.2 h1, rfl, (sameTree_iff _ _).2 rfl⟩⟩
  · rw [h2]
    refine ⟨pre.length, n.access, by simp [kids], rfl, rfl, Or.inr ⟨n, firstChild_at h1 _ _, ?_, ?_⟩⟩
    · exact sameTree_symm (moreAccessed_sameTree (moreAccessed_access n))
    · exact sameTree_symm (moreAccessed_sameTree (moreAccessed_at pre k post (moreAccessed_access n)))

/-- `get(key, default)` returns the default exactly if the key is absent. -/
theorem C20_get_default {α : Type} (cast : PN → Res α) (k : Str) (dflt : α) (t : PN) :
    (firstChild k (kids t) = none ∧ ∃ t', getDef cast k dflt t = .ok (dflt, t') ∧ SameTree t' t) ∨
    ∃ c t', firstChild k (kids t) = some c ∧ SameTree t' t ∧
      getDef cast k dflt t = (do let x ← cast c.clear; .ok (x, t')) := by
  obtain ⟨a, val, cs⟩ := t
  rw [getDef_eq]
  rcases getAnyDef_spec cast dflt [k] a val cs with ⟨t', h1, h2, h3⟩ | ⟨ks1, k', ks2, n, t', h0, h1, h2, h3, h4⟩
  · exact Or.inl ⟨h1 k (by simp), t', h3, sameTree_symm (moreAccessed_sameTree h2)⟩
  · right
    have : k' = k := by
      cases ks1 with
      | nil => simp at h0; exact h0.1.symm
      | cons x xs => simp at h0
    subst this
    exact ⟨n, t', h2, sameTree_symm (moreAccessed_sameTree h3), h4⟩

/-- The keys and their order stay the same, but for a new key at the end; hence after any series of `set` calls the
keys are those present before followed by the new ones in order of first use. -/
theorem C20_set_history (kvs : List (Str × PN)) (t : PN) :
    (kids (kvs.foldl (fun t kv => set kv.1 kv.2 t) t)).map Prod.fst =
      (kids t).map Prod.fst ++ newKeys ((kids t).map Prod.fst) (kvs.map Prod.fst) := by
  induction kvs generalizing t with
  | nil => simp [newKeys]
  | cons kv kvs ih =>
    obtain ⟨k, v⟩ := kv
    simp only [List.foldl_cons, ih, List.map_cons, newKeys]
    rcases C20_set_frame k v t with ⟨h1, h2⟩ | ⟨pre, n, post, h1, _, h2⟩
    · rw [sameTree_keys h2, if_neg h1]; simp [kids]
    · have hm : k ∈ (kids t).map Prod.fst := by rw [h1]; simp
      have hk : (kids (set k v t)).map Prod.fst = (kids t).map Prod.fst := by rw [h1, sameTree_keys h2]; simp [kids]
      rw [if_pos hm, hk]

/-- And each key has the last value set for it, or what it had before. -/
theorem C20_set_history_values (kvs : List (Str × PN)) (t : PN) (k : Str) :
    SameOpt (firstChild k (kids (kvs.foldl (fun t kv => set kv.1 kv.2 t) t)))
      ((lastChild k kvs).or (firstChild k (kids t))) := by
  rw [sameOpt_iff]
  induction kvs generalizing t with
  | nil => simp [lastChild]
  | cons kv kvs ih =>
    obtain ⟨k', v⟩ := kv
    simp only [List.foldl_cons, ih, lastChild]
    cases lastChild k kvs with
    | some m => simp
    | none =>
      by_cases hk : k' = k
      · subst hk
        obtain ⟨c, h1, h2⟩ := C20_set_get k' v t
        simp [h1, (sameTree_iff _ _).1 h2]
      · simp [hk, (sameOpt_iff _ _).1 (C20_set_other k' k v t (Ne.symm hk))]

example : (firstChild b!"b" (kids (set b!"a" (leaf b!"2") (.mk false [] [(b!"a", leaf b!"1"), (b!"b", leaf b!"x"),
    (b!"a", leaf b!"3")])))).map value = some b!"x" ∧
    (kids (set b!"a" (leaf b!"2") (.mk false [] [(b!"a", leaf b!"1"), (b!"b", leaf b!"x"),
    (b!"a", leaf b!"3")]))).map (fun kn => kn.2.value) = [b!"2", b!"x", b!"3"] := by decide

/-! ## C21: delimited keys -/

/-- `set_delimited(key, v)` puts the content of `v` at the path of `key` and leaves every path alone that is neither a
prefix nor an extension of it. -/
theorem C21_set_delimited (d : Byte) (key : Str) (v t : PN) : ∃ t', setDelimited d key v t = .ok t' ∧
    t'.value = t.value ∧ SameOpt (nodeAt (segments d key) t') (some v) ∧
    ∀ path, ¬ path <+: segments d key → ¬ segments d key <+: path → SameOpt (nodeAt path t') (nodeAt path t) := by
  obtain ⟨t', h1, h2, h3, h4⟩ := setDelimitedN_spec d v (key.length + 1) key t (by omega)
  exact ⟨t', h1, h2, (sameOpt_iff _ _).2 h3, fun qs a b => (sameOpt_iff _ _).2 (h4 qs a b)⟩

/-- `get_delimited(key)` converts the node at the path of `key`, and throws exactly if there is none. -/
theorem C21_get_delimited {α : Type} (cast : PN → Res α) (d : Byte) (key : Str) (t : PN) :
    (nodeAt (segments d key) t = none ∧ getDelimited cast d key t = .throws .flutError) ∨
    ∃ c t', nodeAt (segments d key) t = some c ∧ SameTree t' t ∧
      getDelimited cast d key t = (do let x ← cast c.clear; .ok (x, t')) := by
  rcases getDelimitedN_spec cast d (key.length + 1) key t (by omega) with h | ⟨c, t', h1, h2, h3⟩
  · exact Or.inl h
  · exact Or.inr ⟨c, t', h1, sameTree_symm (moreAccessed_sameTree h2), h3⟩

/-- So `get_delimited` after `set_delimited` gives the value back. -/
theorem C21_round_trip {α : Type} (to : α → PN) (from' : PN → Res α) (hrt : ∀ x, from' (to x).clear = .ok x)
    (d : Byte) (key : Str) (x : α) (t : PN) :
    ∃ t' t'', setDelimited d key (to x) t = .ok t' ∧ getDelimited from' d key t' = .ok (x, t'') := by
  obtain ⟨t', h1, -, h3, -⟩ := C21_set_delimited d key (to x) t
  rw [sameOpt_iff] at h3
  rcases C21_get_delimited from' d key t' with ⟨g1, -⟩ | ⟨c, t'', g1, -, g3⟩
  · rw [g1] at h3; simp at h3
  · rw [g1] at h3
    simp at h3
    exact ⟨t', t'', h1, by rw [g3, h3, hrt]; rfl⟩

/-- `try_get_child_delimited(key)` returns the node at the path of `key`, null if there is none. -/
theorem C21_try_get (d : Byte) (key : Str) (t : PN) : ∃ r, tryGetDelimited d key t = .ok r ∧
    SameOpt r (nodeAt (segments d key) t) := by
  obtain ⟨r, h1, h2⟩ := tryGetDelimitedN_spec d (key.length + 1) key t (by omega)
  exact ⟨r, h1, (sameOpt_iff _ _).2 h2⟩

/-- The path of a key: its pieces contain no delimiter, and joined by the delimiter they give the key. -/
theorem C21_segments (d : Byte) (key : Str) : (∀ s ∈ segments d key, d ∉ s) ∧
    ((segments d key).intersperse [d]).flatten = key := by
  constructor
  · induction key with
    | nil => simp [segments]
    | cons c cs ih =>
      rw [segments]
      split
      · intro s hs
        rcases List.mem_cons.1 hs with rfl | hs
        · simp
        · exact ih s hs
      · rename_i hc
        cases hs : segments d cs with
        | nil => exact absurd hs (segments_ne_nil d cs)
        | cons x xs =>
          rw [hs] at ih
          intro s hs'
          rcases List.mem_cons.1 hs' with rfl | hs'
          · simp only [List.mem_cons, not_or]
            exact ⟨fun h => hc h.symm, ih x (by simp)⟩
          · exact ih s (by simp [hs'])
  · induction key with
    | nil => rfl
    | cons c cs ih =>
      rw [segments]
      cases hs : segments d cs with
      | nil => exact absurd hs (segments_ne_nil d cs)
      | cons x xs =>
        rw [hs] at ih
        split
        · rename_i hc
          rw [List.intersperse_cons_cons]
          simp [ih, hc]
        · cases xs with
          | nil => simpa using ih
          | cons y ys => simpa using ih

example : segments 46 b!"a.b." = [b!"a", b!"b", []] := by decide
example : ¬ [b!"a", b!"x"] <+: segments 46 b!"a.b." ∧ ¬ segments 46 b!"a.b." <+: [b!"a", b!"x"] := by decide

/-! ## C22: `push_back` and `select` -/

/-- `push_back` appends one child with the given content and leaves the rest alone. -/
theorem C22_push_back (k : Str) (v t : PN) : SameTree (pushBack k v t) (.mk false t.value (kids t ++ [(k, v)])) := by
  obtain ⟨a, val, cs⟩ := t
  refine (sameTree_iff _ _).2 ?_
  simp [pushBack, PN.clear, PN.clearAll_eq, kids, value, clear_clear]

/-- Iterating a view visits exactly the elements that satisfy the predicate, in order, and ends. This covers
`select`, `select_pattern` and every other `view_if`. -/
theorem C22_view {α : Type} (p : α → Bool) (l : List α) : viewIf p l = .ok (l.filter p) :=
  viewLoop_filter p _ l (by omega)

/-- Iterating `select(key)` visits exactly the children with that key, in order. -/
theorem C22_select (k : Str) (t : PN) : select k t = .ok ((kids t).filter fun kn => decide (kn.1 = k)) := by
  obtain ⟨a, val, cs⟩ := t
  exact C22_view _ _

example : (kids (.mk false [] [(b!"a", leaf b!"1"), (b!"b", leaf b!"x"), (b!"a", leaf b!"3")])).filter
    (fun kn => decide (kn.1 = b!"a")) ≠ [] := by
  intro h; have := congrArg List.length h; revert this; decide

/-! ## C23: equality -/

/-- `operator==` decides equality of values, keys and children, recursively and in order; flags do not matter. -/
theorem C23_eq (m n : PN) : eqv m n = true ↔ SameTree m n := by rw [eqv_iff, sameTree_iff]

/-- Hence it is an equivalence relation. -/
theorem C23_equivalence : (∀ m, eqv m m = true) ∧ (∀ m n, eqv m n = eqv n m) ∧
    ∀ a b c, eqv a b = true → eqv b c = true → eqv a c = true := by
  refine ⟨fun m => (eqv_iff m m).2 rfl, fun m n => ?_, fun a b c h1 h2 => ?_⟩
  · rw [Bool.eq_iff_iff, eqv_iff, eqv_iff]; exact eq_comm
  · rw [eqv_iff] at *; exact h1.trans h2

example : SameTree (.mk true b!"v" [(b!"a", .mk false [] [])]) (.mk false b!"v" [(b!"a", .mk true [] [])]) := by
  rw [← C23_eq]; decide
example : ¬ SameTree (.mk true b!"v" [(b!"a", .mk false [] [])]) (.mk true b!"v" []) := by
  rw [← C23_eq]; decide

/-! ## C24: access flags -/

/-- `count_unaccessed` is the number of nodes whose flag is not set. -/
theorem C24_count (n : PN) : countUnaccessed n = (flags n).count false := countUnaccessed_flags n

/-- After `clear_accessed_recursively` it is the number of nodes. -/
theorem C24_clear (n : PN) : countUnaccessed n.clear = (flags n).length ∧ SameTree n.clear n := by
  refine ⟨?_, sameTree_clear n⟩
  rw [C24_count, flags_clear]
  rw [List.count_eq_length.2 (by simp)]
  simp

/-- No sequence of reads clears a flag or changes the content. -/
theorem C24_reads (ops : List ReadOp) (t t' : PN) (h : runReads ops t = .ok t') : MoreAccessed t t' := by
  induction ops generalizing t with
  | nil => simp [runReads] at h; rw [← h]; exact moreAccessed_refl t
  | cons op ops ih =>
    simp only [runReads] at h
    cases hr : op.run t <;> simp [hr] at h
    exact moreAccessed_trans (read_more op t _ hr) (ih _ h)

/-- So the count never grows by reading. -/
theorem C24_count_mono {t t' : PN} (h : MoreAccessed t t') : countUnaccessed t' ≤ countUnaccessed t := by
  induction h with
  | @mk a b v cs ds hab hk hc ih =>
    have key : countUnaccessedAll ds ≤ countUnaccessedAll cs := by
      clear hab
      induction cs generalizing ds with
      | nil => cases ds <;> simp_all [countUnaccessedAll]
      | cons x xs ihx =>
        cases ds with
        | nil => simp at hk
        | cons y ys =>
          simp at hk
          have h1 := ih (x, y) (by simp)
          have h2 := ihx (ds := ys) hk.2 (fun p hp => hc p (by rw [List.zip_cons_cons]; exact List.mem_cons_of_mem _ hp))
            (fun p hp => ih p (by rw [List.zip_cons_cons]; exact List.mem_cons_of_mem _ hp))
          simp only [countUnaccessedAll]
          simp only at h1
          omega
    simp only [countUnaccessed]
    cases a <;> cases b <;> simp_all <;> omega

/-- `get<T>(key)` marks the node and the child it reads. -/
theorem C24_get_marks {α : Type} (cast : PN → Res α) (k : Str) (t t' : PN) (x : α)
    (h : getKeyed cast k t = .ok (x, t')) : t'.acc = true ∧ ∃ c, firstChild k (kids t') = some c ∧ c.acc = true := by
  obtain ⟨a, val, cs⟩ := t
  rcases getKeyed_spec cast k a val cs with ⟨_, h1⟩ | ⟨pre, n, post, rfl, h1, h2, h3⟩
  · rw [h1] at h; cases h
  · rw [h3] at h
    cases hc : cast n.clear <;> simp [hc] at h
    rw [← h.2]
    refine ⟨rfl, n.access, firstChild_at h1 _ _, ?_⟩
    cases n; rfl

example : (runReads [.getKeyed (fun _ => .ok ()) b!"a", .child 0 (.hasKey b!"z")]
    (.mk false [] [(b!"a", leaf b!"1"), (b!"b", leaf b!"x")])).map (fun t => t.countUnaccessed) = .ok 1 := by decide

/-! ## C25: merging -/

/-- Without overwriting, the children of the node keep their content and place; each key has the node's own first child,
or else the first one of the other node. -/
theorem C25_keep (other t : PN) : (∃ new, SameTree (merge false other t) (.mk false t.value (kids t ++ new))) ∧ ∀ k,
    SameOpt (firstChild k (kids (merge false other t))) ((firstChild k (kids t)).or (firstChild k (kids other))) := by
  obtain ⟨a, v, cs⟩ := t
  obtain ⟨b, w, os⟩ := other
  obtain ⟨new, hn⟩ := merge_keep os cs
  refine ⟨⟨new, (sameTree_iff _ _).2 ?_⟩, fun k => (sameOpt_iff _ _).2 (merge_first_keep os k cs)⟩
  simp only [kids, merge, PN.children] at hn ⊢
  rw [hn]; rfl

/-- With overwriting, each key has the last child of the other node with that key, or else the node's own first one. -/
theorem C25_overwrite (other t : PN) (k : Str) :
    SameOpt (firstChild k (kids (merge true other t))) ((lastChild k (kids other)).or (firstChild k (kids t))) := by
  obtain ⟨a, v, cs⟩ := t
  obtain ⟨b, w, os⟩ := other
  exact (sameOpt_iff _ _).2 (merge_first_overwrite os k cs)

/-- In both cases the keys of the node come first, in their order, followed by the new keys, each once, in order of
first occurrence; the value of the node stays. -/
theorem C25_keys (overwrite : Bool) (other t : PN) : (merge overwrite other t).value = t.value ∧
    (kids (merge overwrite other t)).map Prod.fst =
      (kids t).map Prod.fst ++ newKeys ((kids t).map Prod.fst) ((kids other).map Prod.fst) := by
  obtain ⟨a, v, cs⟩ := t
  obtain ⟨b, w, os⟩ := other
  exact ⟨rfl, merge_keys overwrite os cs⟩

/-- A child keeps its key and content if its key is not in the other node or if it is not the first child with its key. -/
theorem C25_others (overwrite : Bool) (other t : PN) (i : Nat) (kn : Str × PN) (h : (kids t)[i]? = some kn)
    (hk : kn.1 ∉ (kids other).map Prod.fst ∨ kn.1 ∈ ((kids t).take i).map Prod.fst) :
    ∃ d, (kids (merge overwrite other t))[i]? = some (kn.1, d) ∧ SameTree d kn.2 := by
  obtain ⟨a, v, cs⟩ := t
  obtain ⟨b, w, os⟩ := other
  refine ⟨kn.2, ?_, sameTree_refl _⟩
  refine merge_other_children overwrite os i kn cs h ?_
  rcases hk with hk | hk
  · exact fun hm => absurd hm hk
  · exact fun _ => hk

/-- Merging counts as reading the node if there is something to merge. -/
theorem C25_accessed (overwrite : Bool) (other t : PN) :
    (merge overwrite other t).acc = true ↔ t.acc = true ∨ kids other ≠ [] := by
  obtain ⟨a, v, cs⟩ := t
  obtain ⟨b, w, os⟩ := other
  cases os <;> simp [merge, acc, kids, PN.children]

example : newKeys [b!"a", b!"a"] [b!"a", b!"c", b!"b", b!"c"] = [b!"c", b!"b"] := by decide

/-! ## C28: alternatives -/

/-- `get_any(keys)` converts the child of the first listed key that exists, and throws exactly if none does. -/
theorem C28_get_any {α : Type} (cast : PN → Res α) (keys : List Str) (t : PN) :
    ((∀ k ∈ keys, firstChild k (kids t) = none) ∧ getAny cast keys t = .throws .flutError) ∨
    ∃ ks1 k ks2 c t', keys = ks1 ++ k :: ks2 ∧ (∀ k' ∈ ks1, firstChild k' (kids t) = none) ∧
      firstChild k (kids t) = some c ∧ SameTree t' t ∧ getAny cast keys t = (do let x ← cast c.clear; .ok (x, t')) := by
  obtain ⟨a, v, cs⟩ := t
  rcases getAny_spec cast keys a v cs with h | ⟨ks1, k, ks2, n, t', h1, h2, h3, h4, h5⟩
  · exact Or.inl h
  · exact Or.inr ⟨ks1, k, ks2, n, t', h1, h2, h3, sameTree_symm (moreAccessed_sameTree h4), h5⟩

/-- `get_any(keys, default)` does the same but returns the default if no key exists. -/
theorem C28_get_any_default {α : Type} (cast : PN → Res α) (keys : List Str) (dflt : α) (t : PN) :
    ((∀ k ∈ keys, firstChild k (kids t) = none) ∧ ∃ t', SameTree t' t ∧ getAnyDef cast keys dflt t = .ok (dflt, t')) ∨
    ∃ ks1 k ks2 c t', keys = ks1 ++ k :: ks2 ∧ (∀ k' ∈ ks1, firstChild k' (kids t) = none) ∧
      firstChild k (kids t) = some c ∧ SameTree t' t ∧
      getAnyDef cast keys dflt t = (do let x ← cast c.clear; .ok (x, t')) := by
  obtain ⟨a, v, cs⟩ := t
  rcases getAnyDef_spec cast dflt keys a v cs with ⟨t', h1, h2, h3⟩ | ⟨ks1, k, ks2, n, t', h1, h2, h3, h4, h5⟩
  · exact Or.inl ⟨h1, t', sameTree_symm (moreAccessed_sameTree h2), h3⟩
  · exact Or.inr ⟨ks1, k, ks2, n, t', h1, h2, h3, sameTree_symm (moreAccessed_sameTree h4), h5⟩

example : firstChild b!"x" (kids (.mk false [] [(b!"a", leaf b!"1")])) = none ∧
    (firstChild b!"a" (kids (.mk false [] [(b!"a", leaf b!"1")]))).map value = some b!"1" := by
  refine ⟨rfl, by decide⟩

end Flut
