import Verif.Proofs.Containers
import Verif.Proofs.Containers2

/-!
# C30–C33, C39–C41: containers
-/

namespace Flut

/-! ## C30: `flat_map` -/

open FlatMap in
/-- Starting empty, after any history of `map[k] = v`, `map[k]`, erasing a present key and `clear`: keys are unique and
in order of insertion, and `find`, `at`, `has_key` and `count` agree with the last write to the key. -/
theorem C30_map {K V : Type} [DecidableEq K] (dflt : V) (ops : List (Op K V))
    (h : MapSpec.Legal dflt ops) :
    ∃ m, runAll dflt ops [] = .ok m ∧ m.map Prod.fst = MapSpec.order ops ∧ (m.map Prod.fst).Nodup ∧
      ∀ k,
        at' k m = (match MapSpec.value dflt k ops with
          | some v => .ok v
          | none => .throws .flutError) ∧
        hasKey k m = (MapSpec.value dflt k ops).isSome ∧
        count k m = (if (MapSpec.value dflt k ops).isSome then 1 else 0) ∧
        (find k m = none ↔ MapSpec.value dflt k ops = none) ∧
        (∀ i, find k m = some i → ∃ v, m[i]? = some (k, v) ∧ MapSpec.value dflt k ops = some v) := by
  obtain ⟨m, h1, h2⟩ := runAll_agrees dflt ops [] [] ⟨rfl, List.nodup_nil, fun _ => rfl⟩ (by simpa using h)
  simp only [List.nil_append] at h2
  refine ⟨m, h1, h2.keys, h2.nodup, ?_⟩
  intro k
  refine ⟨?_, ?_, ?_, ?_, ?_⟩
  · rw [at_eq, h2.vals]; cases MapSpec.value dflt k ops <;> rfl
  · rw [hasKey_eq, h2.vals]
  · rw [count_eq k m h2.nodup, h2.vals]
  · rw [find_none_iff, ← val_none_iff, h2.vals]
  · intro i hi
    obtain ⟨v, h3, h4⟩ := find_some k m i hi
    exact ⟨v, h3, by rw [← h2.vals]; exact h4⟩

/-- The hypothesis holds for a history that overwrites, erases and re-inserts. -/
example : MapSpec.Legal 0 [.assign 1 10, .touch 2, .assign 1 11, .erase 1, .assign 3 5, .assign (1 : Nat) 7] := by
  intro pre k post h
  match pre, h with
  | [_, _, _], h => simp at h; obtain ⟨rfl, rfl, rfl, rfl, _⟩ := h; decide
  | [], h => simp at h
  | [_], h => simp at h
  | [_, _], h => simp at h
  | [_, _, _, _], h => simp at h
  | [_, _, _, _, _], h => simp at h
  | _ :: _ :: _ :: _ :: _ :: _ :: r, h => simp at h

example : FlatMap.runAll 0 [.assign 1 10, .touch 2, .assign 1 11, .erase 1, .assign 3 5, .assign (1 : Nat) 7] []
    = .ok [(2, 0), (3, 5), (1, 7)] := rfl

open FlatMap in
/-- Erasing the result of a failed `find` is undefined behaviour. -/
theorem C30_erase_absent {K V : Type} [DecidableEq K] (k : K) (m : FlatMap K V)
    (h : hasKey k m = false) : eraseKey k m = .ub := by
  unfold hasKey at h
  unfold eraseKey
  cases hf : find k m with
  | none => rfl
  | some i => rw [hf] at h; cases h

example : FlatMap.hasKey 5 [(2, 0), (3, 5)] = false := by decide

/-! ## C31: `factory` -/

theorem factory_val {A T : Type} (name : Str) (rs : List (Str × (A → T))) :
    FlatMap.val name (Factory.registerAll rs) = lastRegistered name rs := by
  unfold Factory.registerAll lastRegistered
  have : ∀ (rs : List (Str × (A → T))) (m : FlatMap Str (A → T)),
      FlatMap.val name (rs.foldl (fun m r => Factory.register r.1 r.2 m) m)
        = (((rs.filter fun r => r.1 = name).getLast?).map Prod.snd).or (FlatMap.val name m) := by
    intro rs
    induction rs with
    | nil => intro m; rfl
    | cons r rs ih =>
      intro m
      simp only [List.foldl_cons]
      rw [ih, Factory.register, FlatMap.assign_val]
      by_cases hr : r.1 = name
      · rw [if_pos hr, List.filter_cons_of_pos (by simpa using hr), List.getLast?_cons]
        cases hl : (rs.filter fun r => r.1 = name).getLast? with
        | none => simp
        | some x => simp
      · rw [if_neg hr, List.filter_cons_of_neg (by simpa using hr)]
  rw [this]
  simp [FlatMap.val]

/-- After any registrations, `create` runs the creator registered last under the name and throws exactly if there is
none; `try_create` returns null exactly then; `has_type` and `empty` agree. -/
theorem C31_factory {A T : Type} (rs : List (Str × (A → T))) (name : Str) (args : A) :
    (Factory.registerAll rs |> Factory.create name args) =
      (match lastRegistered name rs with
        | some f => .ok (f args)
        | none => .throws .flutError) ∧
    (Factory.registerAll rs |> Factory.tryCreate name args) = .ok ((lastRegistered name rs).map fun f => f args) ∧
    (Factory.registerAll rs |> Factory.hasType name) = rs.any (fun r => r.1 = name) ∧
    (Factory.empty (Factory.registerAll rs) = true ↔ rs = []) := by
  have hv := factory_val name rs
  have hlast : (lastRegistered name rs).isSome = rs.any (fun r => r.1 = name) := by
    unfold lastRegistered
    rw [Option.isSome_map, Bool.eq_iff_iff]
    simp [List.any_eq_true, Option.isSome_iff_ne_none, List.filter_eq_nil_iff]
  refine ⟨?_, ?_, ?_, ?_⟩
  · show Factory.create name args (Factory.registerAll rs) = _
    unfold Factory.create
    cases hf : FlatMap.find name (Factory.registerAll rs) with
    | none =>
      rw [← hv, (FlatMap.val_none_iff _ _).2 ((FlatMap.find_none_iff _ _).1 hf)]
    | some i =>
      obtain ⟨v, h1, h2⟩ := FlatMap.find_some _ _ _ hf
      rw [← hv, h2]
      simp [h1]
  · show Factory.tryCreate name args (Factory.registerAll rs) = _
    unfold Factory.tryCreate
    cases hf : FlatMap.find name (Factory.registerAll rs) with
    | none =>
      rw [← hv, (FlatMap.val_none_iff _ _).2 ((FlatMap.find_none_iff _ _).1 hf)]
      rfl
    | some i =>
      obtain ⟨v, h1, h2⟩ := FlatMap.find_some _ _ _ hf
      rw [← hv, h2]
      simp [h1]
  · show FlatMap.hasKey name (Factory.registerAll rs) = _
    rw [FlatMap.hasKey_eq, hv, hlast]
  · constructor
    · intro h
      cases rs with
      | nil => rfl
      | cons r rs =>
        exfalso
        have hr : (lastRegistered r.1 (r :: rs)).isSome = true := by
          unfold lastRegistered
          rw [Option.isSome_map]
          simp [Option.isSome_iff_ne_none, List.filter_eq_nil_iff]
        have hm : Factory.registerAll (r :: rs) = [] := by
          simpa [Factory.empty] using h
        rw [← factory_val, hm] at hr
        cases hr
    · rintro rfl; rfl

example : (Factory.registerAll [(b!"a", fun n : Nat => n + 1), (b!"b", fun n => n * 2), (b!"a", fun n => n + 10)]
    |> Factory.create b!"a" 5) = .ok 15 := rfl

/-! ## C32: `sorted_vector` -/

/-- Inserting puts the element after everything that is not greater and before everything that is, and keeps the order
of all other elements; in particular equal elements keep their insertion order. -/
theorem C32_insert {α : Type} (lt : α → α → Bool) (h : StrictWeak lt) (e : α) (l : List α) (hs : Sorted lt l) :
    ∃ pre post, l = pre ++ post ∧ (∀ x ∈ pre, lt e x = false) ∧ (∀ x ∈ post, lt e x = true) ∧
      SortedVector.insert lt e l = .ok (pre ++ e :: post) :=
  SortedVector.insert_split lt h e l hs

theorem sorted_run {α : Type} (lt : α → α → Bool) (h : StrictWeak lt) (op : SortedVector.Op α) (l l' : List α)
    (hs : Sorted lt l) (hr : SortedVector.run lt op l = .ok l') : Sorted lt l' := by
  cases op with
  | insert e =>
    obtain ⟨pre, post, h1, h2, h3, h4⟩ := SortedVector.insert_split lt h e l hs
    simp only [SortedVector.run] at hr
    rw [h4] at hr
    injection hr with hr
    subst hr
    subst h1
    exact SortedVector.sorted_insert lt h e pre post hs h2 h3
  | erase i =>
    simp only [SortedVector.run] at hr
    split at hr
    · injection hr with hr
      subst hr
      exact SortedVector.sorted_eraseIdx lt l i hs
    · cases hr
  | clear =>
    simp only [SortedVector.run] at hr
    injection hr with hr
    subst hr
    exact List.Pairwise.nil

/-- The elements are in non-decreasing order after every history of insertions, erasures and `clear`. -/
theorem C32_sorted {α : Type} (lt : α → α → Bool) (h : StrictWeak lt) (ops : List (SortedVector.Op α)) (l' : List α)
    (hr : SortedVector.runAll lt ops [] = .ok l') : Sorted lt l' := by
  have : ∀ (ops : List (SortedVector.Op α)) (l : List α), Sorted lt l →
      SortedVector.runAll lt ops l = .ok l' → Sorted lt l' := by
    intro ops
    induction ops with
    | nil =>
      intro l hs hr
      simp only [SortedVector.runAll] at hr
      injection hr with hr
      exact hr ▸ hs
    | cons op ops ih =>
      intro l hs hr
      simp only [SortedVector.runAll] at hr
      obtain ⟨l1, h1, h2⟩ := Res.bind_eq_ok.1 hr
      exact ih l1 (sorted_run lt h op l l1 hs h1) h2
  exact this ops [] List.Pairwise.nil hr

/-- The only way for a history to go wrong is to erase at a position that holds no element. -/
theorem C32_defined {α : Type} (lt : α → α → Bool) (h : StrictWeak lt) (ops : List (SortedVector.Op α)) (l : List α)
    (hl : SortedVector.runAll lt ops [] = .ok l) (op : SortedVector.Op α)
    (hop : ∀ i, op = .erase i → i < l.length) : ∃ l', SortedVector.runAll lt (ops ++ [op]) [] = .ok l' := by
  have hs := C32_sorted lt h ops l hl
  have happ : ∀ (ops : List (SortedVector.Op α)) (l0 : List α),
      SortedVector.runAll lt ops l0 = .ok l →
      SortedVector.runAll lt (ops ++ [op]) l0 = (SortedVector.run lt op l >>= .ok) := by
    intro ops
    induction ops with
    | nil =>
      intro l0 h0
      simp only [SortedVector.runAll] at h0
      injection h0 with h0
      subst h0
      rfl
    | cons o ops ih =>
      intro l0 h0
      simp only [SortedVector.runAll] at h0
      obtain ⟨l1, h1, h2⟩ := Res.bind_eq_ok.1 h0
      simp only [List.cons_append, SortedVector.runAll, h1, Res.bind_ok]
      exact ih l1 h2
  rw [happ ops [] hl]
  cases op with
  | insert e =>
    obtain ⟨pre, post, _, _, _, h4⟩ := SortedVector.insert_split lt h e l hs
    exact ⟨_, by simp only [SortedVector.run, h4, Res.bind_ok]; rfl⟩
  | erase i => exact ⟨_, by simp only [SortedVector.run, if_pos (hop i rfl), Res.bind_ok]; rfl⟩
  | clear => exact ⟨[], rfl⟩

theorem perm_eraseIdx {α : Type} (l : List α) (i : Nat) (e : α) (h : l[i]? = some e) :
    l.Perm (e :: l.eraseIdx i) := by
  induction l generalizing i with
  | nil => simp at h
  | cons a r ih =>
    cases i with
    | zero =>
      simp only [List.getElem?_cons_zero, Option.some.injEq] at h
      subst h
      exact List.Perm.refl _
    | succ i =>
      simp only [List.getElem?_cons_succ] at h
      simp only [List.eraseIdx_cons_succ]
      exact ((ih i h).cons a).trans (List.Perm.swap _ _ _)

/-- The content is the multiset of what was inserted and not taken out. -/
theorem C32_contents {α : Type} (lt : α → α → Bool) (h : StrictWeak lt) (ops : List (SortedVector.Op α))
    (l' : List α) (hr : SortedVector.runAll lt ops [] = .ok l') :
    ∃ removed, Removes lt [] ops removed ∧ (insertedBy ops).Perm (l' ++ removed) := by
  have : ∀ (ops : List (SortedVector.Op α)) (l : List α), Sorted lt l →
      SortedVector.runAll lt ops l = .ok l' →
      ∃ removed, Removes lt l ops removed ∧ (l ++ insertedBy ops).Perm (l' ++ removed) := by
    intro ops
    induction ops with
    | nil =>
      intro l hs hr
      simp only [SortedVector.runAll] at hr
      injection hr with hr
      subst hr
      exact ⟨[], .done l, List.Perm.refl _⟩
    | cons op ops ih =>
      intro l hs hr
      simp only [SortedVector.runAll] at hr
      obtain ⟨l1, h1, h2⟩ := Res.bind_eq_ok.1 hr
      obtain ⟨rem, h3, h4⟩ := ih l1 (sorted_run lt h op l l1 hs h1) h2
      cases op with
      | insert e =>
        obtain ⟨pre, post, h5, _, _, h8⟩ := SortedVector.insert_split lt h e l hs
        refine ⟨rem, .insert l l1 e ops rem h1 h3, ?_⟩
        simp only [SortedVector.run] at h1
        rw [h8] at h1
        injection h1 with h1
        subst h1
        subst h5
        refine List.Perm.trans ?_ h4
        simp only [insertedBy, List.append_assoc, List.cons_append]
        exact List.Perm.append_left pre List.perm_middle
      | erase i =>
        have hrun := h1
        simp only [SortedVector.run] at h1
        split at h1
        case isTrue hi =>
          injection h1 with h1
          subst h1
          refine ⟨l[i] :: rem, .erase l _ i l[i] ops rem (List.getElem?_eq_getElem hi) hrun h3, ?_⟩
          have hp := perm_eraseIdx l i l[i] (List.getElem?_eq_getElem hi)
          simp only [insertedBy]
          refine (hp.append_right _).trans ?_
          rw [List.cons_append]
          exact (h4.cons _).trans List.perm_middle.symm
        case isFalse => cases h1
      | clear =>
        simp only [SortedVector.run] at h1
        injection h1 with h1
        subst h1
        refine ⟨l ++ rem, .clear l ops rem h3, ?_⟩
        simp only [List.nil_append] at h4
        simp only [insertedBy]
        refine (h4.append_left l).trans ?_
        rw [← List.append_assoc, ← List.append_assoc]
        exact List.perm_append_comm.append_right rem
  simpa using this ops [] List.Pairwise.nil hr

/-- Without erasures, the elements equivalent to any given one are in the order of their insertion. -/
theorem C32_stable {α : Type} (lt : α → α → Bool) (h : StrictWeak lt) (es : List α) :
    ∃ l', SortedVector.runAll lt (es.map .insert) [] = .ok l' ∧ Sorted lt l' ∧ es.Perm l' ∧
      ∀ e, l'.filter (fun x => !lt x e && !lt e x) = es.filter (fun x => !lt x e && !lt e x) := by
  have : ∀ (es l : List α), Sorted lt l →
      ∃ l', SortedVector.runAll lt (es.map .insert) l = .ok l' ∧ Sorted lt l' ∧ (l ++ es).Perm l' ∧
        ∀ e, l'.filter (fun x => !lt x e && !lt e x)
          = l.filter (fun x => !lt x e && !lt e x) ++ es.filter (fun x => !lt x e && !lt e x) := by
    intro es
    induction es with
    | nil => exact fun l hs => ⟨l, rfl, hs, by simp, by simp⟩
    | cons a es ih =>
      intro l hs
      obtain ⟨pre, post, h1, h2, h3, h4⟩ := SortedVector.insert_split lt h a l hs
      subst h1
      have hs' := SortedVector.sorted_insert lt h a pre post hs h2 h3
      obtain ⟨l', h5, h6, h7, h8⟩ := ih _ hs'
      refine ⟨l', ?_, h6, ?_, ?_⟩
      · simp only [List.map_cons, SortedVector.runAll, SortedVector.run, h4, Res.bind_ok]
        exact h5
      · refine List.Perm.trans ?_ h7
        simp only [List.append_assoc, List.cons_append]
        exact List.Perm.append_left pre List.perm_middle
      · intro e
        rw [h8 e]
        simp only [List.filter_append]
        by_cases he : (!lt a e && !lt e a) = true
        · have hpost : post.filter (fun x => !lt x e && !lt e x) = [] := by
            rw [List.filter_eq_nil_iff]
            intro x hx hxe
            simp only [Bool.and_eq_true, Bool.not_eq_eq_eq_not, Bool.not_true] at he hxe
            rcases h.weak a e x (h3 x hx) with h9 | h9
            · rw [he.1] at h9; cases h9
            · rw [hxe.2] at h9; cases h9
          rw [List.filter_cons_of_pos (a := a) he, List.filter_cons_of_pos (a := a) he, hpost]
          simp
        · rw [List.filter_cons_of_neg (a := a) he, List.filter_cons_of_neg (a := a) he]
  simpa using this es [] List.Pairwise.nil

/-- Comparing pairs by their first component is a strict weak order that is not total. -/
example : StrictWeak (fun a b : Nat × Nat => decide (a.1 < b.1)) :=
  ⟨fun a => by simp, fun a b c => by simp; omega, fun a b c => by simp; omega⟩

example : SortedVector.runAll (fun a b : Nat × Nat => decide (a.1 < b.1))
    [.insert (2, 0), .insert (1, 0), .insert (2, 1), .insert (1, 1), .erase 0] []
    = .ok [(1, 1), (2, 0), (2, 1)] := rfl

/-! ## C33: `circular_deque` -/

/-- Everything that can be read from the deque is as in the sequence `l`. -/
structure DequeShows {α : Type} (d : CDeque α) (l : List α) : Prop where
  size : d.size = l.length
  get : ∀ i (h : i < l.length), d.get i = .ok l[i]
  front : d.frontElem = match l.head? with | some x => .ok x | none => .throws .assertion
  back : d.back = match l.getLast? with | some x => .ok x | none => .throws .assertion
  iterate : d.iterate = .ok l

theorem CDeque.Rep.shows {α : Type} {d : CDeque α} {l : List α} (h : CDeque.Rep d l) : DequeShows d l := by
  refine ⟨h.size, fun i hi => CDeque.rep_get d l h i hi, ?_, ?_, CDeque.rep_iterate d l h⟩
  · cases l with
    | nil => unfold CDeque.frontElem; rw [if_neg (by rw [h.size]; simp)]; rfl
    | cons x l => rw [CDeque.rep_front d x l h]; rfl
  · cases hl : l.getLast? with
    | none =>
      rw [List.getLast?_eq_none_iff] at hl
      subst hl
      unfold CDeque.back
      rw [if_neg (by rw [h.size]; simp)]
    | some x =>
      obtain ⟨l', rfl⟩ := List.getLast?_eq_some_iff.1 hl
      exact CDeque.rep_back d l' x h

/-- As long as the deque never holds more elements than the capacity it was constructed with, it behaves as a
double-ended queue: every history of pushes, pops and `clear` is defined, and what is read is what the abstract queue
holds. -/
theorem C33_within_capacity_partial {α : Type} (dflt : α) (cap : Nat) (ops : List (CDeque.Op α)) (l : List α)
    (hs : DequeSpec.run ops [] = some l)
    (hcap : ∀ pre post l1, ops = pre ++ post → DequeSpec.run pre [] = some l1 → l1.length ≤ cap) :
    ∃ d, CDeque.runAll ops (CDeque.new dflt cap) = .ok d ∧ DequeShows d l := by
  obtain ⟨d, h1, h2⟩ := CDeque.rep_runAll_room ops (CDeque.new dflt cap) [] l (CDeque.rep_new dflt cap) cap
    (by simp [CDeque.new]) hcap hs
  exact ⟨d, h1, h2.shows⟩

/-- A history that wraps around, within the capacity. -/
example : ∃ d, CDeque.runAll [.pushFront 1, .pushBack 2, .popFront, .pushBack 3] (CDeque.new 0 2) = .ok d ∧
    DequeShows d [2, 3] := by
  refine C33_within_capacity_partial 0 2 _ _ rfl ?_
  intro pre post l1 h hr
  match pre, h with
  | [], _ => cases hr; decide
  | [_], h => simp at h; obtain ⟨rfl, _⟩ := h; cases hr; decide
  | [_, _], h => simp at h; obtain ⟨rfl, rfl, _⟩ := h; cases hr; decide
  | [_, _, _], h => simp at h; obtain ⟨rfl, rfl, rfl, _⟩ := h; cases hr; decide
  | [_, _, _, _], h => simp at h; obtain ⟨rfl, rfl, rfl, rfl, _⟩ := h; cases hr; decide
  | _ :: _ :: _ :: _ :: _ :: r, h => simp at h

/-- For any history whatever, the deque behaves as a double-ended queue unless the history runs into undefined
behaviour. -/
theorem C33_or_undefined_partial {α : Type} (dflt : α) (cap : Nat) (ops : List (CDeque.Op α)) (l : List α)
    (hs : DequeSpec.run ops [] = some l) :
    CDeque.runAll ops (CDeque.new dflt cap) = .ub ∨
      ∃ d, CDeque.runAll ops (CDeque.new dflt cap) = .ok d ∧ DequeShows d l := by
  rcases CDeque.rep_runAll ops (CDeque.new dflt cap) [] l (CDeque.rep_new dflt cap) hs with h | ⟨d, h1, h2⟩
  · exact Or.inl h
  · exact Or.inr ⟨d, h1, h2.shows⟩

/-- Growing by `push_front` alone, and by `push_back` while the front is at index 0, is fine at any size. -/
example : ∃ d, CDeque.runAll [.pushBack 1, .pushBack 2, .pushBack 3, .pushFront 4] (CDeque.new 0 1) = .ok d ∧
    d.iterate = .ok [4, 1, 2, 3] := ⟨_, rfl, rfl⟩

/-- Used at the back only (a stack), the deque grows beyond its capacity as it should. -/
theorem C33_back_only_partial {α : Type} (dflt : α) (cap : Nat) (ops : List (CDeque.Op α)) (l : List α)
    (hs : DequeSpec.run ops [] = some l) (hops : ∀ op ∈ ops, op ≠ .popFront ∧ ∀ v, op ≠ .pushFront v) :
    ∃ d, CDeque.runAll ops (CDeque.new dflt cap) = .ok d ∧ DequeShows d l := by
  obtain ⟨d, h1, h2⟩ := CDeque.runAll_back ops (CDeque.new dflt cap) [] l (CDeque.rep_new dflt cap) rfl hops hs
  exact ⟨d, h1, h2.shows⟩

example : ∃ d, CDeque.runAll [.pushBack 1, .pushBack 2, .popBack, .pushBack 3, .pushBack 4] (CDeque.new 0 1) = .ok d ∧
    DequeShows d [1, 3, 4] := C33_back_only_partial 0 1 _ _ rfl (by simp)

/-- Without `push_back` it grows beyond its capacity as it should, too. -/
theorem C33_no_push_back_partial {α : Type} (dflt : α) (cap : Nat) (ops : List (CDeque.Op α)) (l : List α)
    (hs : DequeSpec.run ops [] = some l) (hops : ∀ v, .pushBack v ∉ ops) :
    ∃ d, CDeque.runAll ops (CDeque.new dflt cap) = .ok d ∧ DequeShows d l := by
  obtain ⟨d, h1, h2⟩ := CDeque.runAll_noPushBack ops (CDeque.new dflt cap) [] l (CDeque.rep_new dflt cap) hops hs
  exact ⟨d, h1, h2.shows⟩

example : ∃ d, CDeque.runAll [.pushFront 1, .pushFront 2, .popFront, .pushFront 3, .pushFront 4, .popBack]
    (CDeque.new 0 1) = .ok d ∧ DequeShows d [4, 3] := C33_no_push_back_partial 0 1 _ _ rfl (by simp)

/-- After any history, the next operation is undefined exactly if it is a `push_back` on a deque that is full and whose first
element is not at the start of the buffer. -/
theorem C33_undefined_exactly {α : Type} (dflt : α) (cap : Nat) (ops : List (CDeque.Op α)) (op : CDeque.Op α)
    (l l' : List α) (d : CDeque α) (hs : DequeSpec.run ops [] = some l) (hs' : DequeSpec.step op l = some l')
    (hr : CDeque.runAll ops (CDeque.new dflt cap) = .ok d) :
    CDeque.run op d = .ub ↔ (∃ v, op = .pushBack v) ∧ d.size = d.capacity ∧ d.front ≠ 0 := by
  rcases CDeque.rep_runAll ops (CDeque.new dflt cap) [] l (CDeque.rep_new dflt cap) hs with h | ⟨d', h1, h2⟩
  · rw [hr] at h; cases h
  · rw [hr] at h1
    injection h1 with h1
    subst h1
    have := CDeque.ub_only op d l l' h2 hs'
    rw [this, h2.size]; rfl

example : ∃ d, CDeque.runAll [.pushBack 1, .pushBack 2, .popFront, .pushBack 3] (CDeque.new 0 2) = .ok d ∧
    CDeque.run (.pushBack 4) d = .ub := by
  refine ⟨_, rfl, ?_⟩
  exact (C33_undefined_exactly 0 2 [.pushBack 1, .pushBack 2, .popFront, .pushBack 3] (.pushBack 4) _ _ _ rfl rfl rfl).2
    ⟨⟨_, rfl⟩, rfl, by decide⟩

/-- Popping an empty deque throws, after any history. -/
theorem C33_pop_empty {α : Type} (dflt : α) (cap : Nat) (ops : List (CDeque.Op α)) (d : CDeque α)
    (hs : DequeSpec.run ops [] = some []) (hr : CDeque.runAll ops (CDeque.new dflt cap) = .ok d) :
    d.popBack = .throws .assertion ∧ d.popFront = .throws .assertion := by
  rcases CDeque.rep_runAll ops (CDeque.new dflt cap) [] [] (CDeque.rep_new dflt cap) hs with h | ⟨d', h1, h2⟩
  · rw [hr] at h; cases h
  · rw [hr] at h1
    injection h1 with h1
    subst h1
    have := h2.size
    simp only [List.length_nil] at this
    exact ⟨if_neg (by omega), if_neg (by omega)⟩

example : DequeSpec.run [.pushBack 1, .popFront] [] = some [] ∧
    (CDeque.runAll [.pushBack 1, .popFront] (CDeque.new 0 2)).isOk = true := ⟨rfl, rfl⟩

/-- The full property is false: pushing at the back of a full deque whose front has moved inserts outside the
buffer. -/
theorem C33_push_back_refuted : DequeSpec.run [.pushBack 1, .pushBack 2, .popFront, .pushBack 3, .pushBack 4] []
      = some [2, 3, 4] ∧
    CDeque.runAll [.pushBack 1, .pushBack 2, .popFront, .pushBack 3, .pushBack 4] (CDeque.new 0 2) = .ub :=
  ⟨rfl, rfl⟩

/-- The const `back()` returns an element that is not the last one. -/
theorem C33_const_back_refuted : ∃ d : CDeque Nat,
    CDeque.runAll [.pushBack 1, .pushBack 2] (CDeque.new 0 3) = .ok d ∧ d.iterate = .ok [1, 2] ∧
      d.back = .ok 2 ∧ d.constBack = .ok 0 := ⟨_, rfl, rfl, rfl, rfl⟩

/-- That is so for every deque that is not empty: the const `back()` looks at the slot behind the last element, which is the slot
of the first element if the deque is full. -/
theorem C33_const_back_slot {α : Type} (d : CDeque α) (h : 0 < d.size) (hc : d.size ≤ d.capacity) :
    d.constBack = d.bufGet ((d.front + d.size) % d.capacity) ∧
    d.back = d.bufGet ((d.front + d.size - 1) % d.capacity) ∧
    (d.size = d.capacity → d.front < d.capacity → d.constBack = d.frontElem) := by
  have h0 : d.capacity ≠ 0 := by omega
  have e : d.constBack = d.bufGet ((d.front + d.size) % d.capacity) := by
    unfold CDeque.constBack
    rw [if_pos h, CDeque.modC, if_neg h0]; rfl
  refine ⟨e, ?_, ?_⟩
  · unfold CDeque.back
    rw [if_pos h, CDeque.modC, if_neg h0]; rfl
  · intro hs hf
    rw [e, CDeque.frontElem, if_pos h, hs, Nat.add_mod_right, Nat.mod_eq_of_lt hf]

example : ∃ d : CDeque Nat, CDeque.runAll [.pushBack 1] (CDeque.new 0 3) = .ok d ∧ d.size = 1 ∧ d.capacity = 3 ∧
    d.constBack = .ok 0 := ⟨_, rfl, rfl, rfl, rfl⟩

/-- `reserve` on a deque that wraps around changes its elements. -/
theorem C33_reserve_refuted : ∃ d : CDeque Nat,
    CDeque.runAll [.pushBack 1, .pushBack 2, .popFront, .pushBack 3] (CDeque.new 0 2) = .ok d ∧
      d.iterate = .ok [2, 3] ∧ (d.reserve 0 4).iterate = .ok [2, 0] := ⟨_, rfl, rfl, rfl⟩

/-! ## C39: `dictionary` -/

/-- `dictionary( e )` is the name of the first entry for `e`, and throws exactly if there is none. -/
theorem C39_name {T : Type} [DecidableEq T] (e : T) (d : List (T × Str)) :
    Dictionary.name e d = match d.find? (fun x => x.1 = e) with
      | some x => .ok x.2
      | none => .throws .flutError := by
  induction d with
  | nil => rfl
  | cons a r ih =>
    obtain ⟨t, s⟩ := a
    by_cases h : e = t
    · subst h; simp [Dictionary.name]
    · have h2 : ¬ t = e := fun h3 => h h3.symm
      simp [Dictionary.name, h, h2, ih]

/-- `dictionary( name )`, with and without a default, uses the first entry with the name. -/
theorem C39_elem {T : Type} (str : Str) (dflt : T) (d : List (T × Str)) :
    (Dictionary.elem str d = match d.find? (fun x => x.2 = str) with
      | some x => .ok x.1
      | none => .throws .flutError) ∧
    (Dictionary.elemOr str dflt d = match d.find? (fun x => x.2 = str) with
      | some x => x.1
      | none => dflt) := by
  induction d with
  | nil => exact ⟨rfl, rfl⟩
  | cons a r ih =>
    obtain ⟨t, s⟩ := a
    by_cases h : str = s
    · subst h; simp [Dictionary.elem, Dictionary.elemOr]
    · have h2 : ¬ s = str := fun h3 => h h3.symm
      simp [Dictionary.elem, Dictionary.elemOr, h, h2, ih]

/-- The free function `lookup` uses the first entry with the name. -/
theorem C39_lookup {T : Type} (str : Str) (d : List (Str × T)) :
    Dictionary.lookup str d = match d.find? (fun x => x.1 = str) with
      | some x => .ok x.2
      | none => .throws .flutError := by
  induction d with
  | nil => rfl
  | cons a r ih =>
    obtain ⟨s, t⟩ := a
    by_cases h : str = s
    · subst h; simp [Dictionary.lookup]
    · have h2 : ¬ s = str := fun h3 => h h3.symm
      simp [Dictionary.lookup, h, h2, ih]

/-- With distinct names and elements the two directions are inverse. -/
theorem C39_inverse {T : Type} [DecidableEq T] (d : List (T × Str)) (h1 : (d.map Prod.fst).Nodup)
    (h2 : (d.map Prod.snd).Nodup) (e : T) (s : Str) :
    Dictionary.name e d = .ok s ↔ Dictionary.elem s d = .ok e := by
  have key : ∀ d : List (T × Str), (d.map Prod.fst).Nodup → (d.map Prod.snd).Nodup →
      (Dictionary.name e d = .ok s ↔ (e, s) ∈ d) ∧ (Dictionary.elem s d = .ok e ↔ (e, s) ∈ d) := by
    intro d
    induction d with
    | nil => intros; simp [Dictionary.name, Dictionary.elem]
    | cons a r ih =>
      obtain ⟨t, u⟩ := a
      intro h1 h2
      simp only [List.map_cons, List.nodup_cons] at h1 h2
      obtain ⟨i1, i2⟩ := ih h1.2 h2.2
      constructor
      · by_cases h : e = t
        · subst h
          have : (e, s) ∉ r := fun hm => h1.1 (List.mem_map_of_mem (f := Prod.fst) hm)
          simp [Dictionary.name, this, eq_comm]
        · simp [Dictionary.name, h, i1]
      · by_cases h : s = u
        · subst h
          have : (e, s) ∉ r := fun hm => h2.1 (List.mem_map_of_mem (f := Prod.snd) hm)
          simp [Dictionary.elem, this, eq_comm]
        · simp [Dictionary.elem, h, i2]
  rw [(key d h1 h2).1, (key d h1 h2).2]

example : Dictionary.name 2 [(1, b!"one"), (2, b!"two")] = .ok b!"two" ∧
    Dictionary.elem b!"two" [(1, b!"one"), (2, b!"two")] = .ok 2 ∧
    ([(1, b!"one"), (2, b!"two")].map Prod.fst).Nodup ∧ ([(1, b!"one"), (2, b!"two")].map Prod.snd).Nodup := by
  decide

/-! ## C40: `memoize` -/

theorem memo_lookup {A R : Type} [DecidableEq A] (f : A → R) (m : List (A × R))
    (h : ∀ x ∈ m, x.2 = f x.1) (a : A) :
    Memoize.lookup a m = if a ∈ m.map Prod.fst then some (f a) else none := by
  induction m with
  | nil => rfl
  | cons x m ih =>
    obtain ⟨k, r⟩ := x
    have hk := h (k, r) (by simp)
    simp only at hk
    unfold Memoize.lookup
    by_cases hka : k = a
    · subst hka; simp [hk]
    · have : ¬ a = k := fun h => hka h.symm
      rw [if_neg hka, ih (fun x hx => h x (by simp [hx]))]
      have e : a ∈ ((k, r) :: m).map Prod.fst ↔ a ∈ m.map Prod.fst := by
        rw [List.map_cons, List.mem_cons]
        exact ⟨fun h => h.resolve_left this, Or.inr⟩
      by_cases hm : a ∈ m.map Prod.fst
      · rw [if_pos hm, if_pos (e.2 hm)]
      · rw [if_neg hm, if_neg (fun h => hm (e.1 h))]

/-- For any sequence of calls every result is the function's value, and the function itself was called exactly once for
each distinct argument, in an order in which they occur. -/
theorem C40_memoize {A R : Type} [DecidableEq A] (f : A → R) (as : List A) :
    ∃ s, Memoize.callAll f as ⟨[], []⟩ = (as.map f, s) ∧ s.calls.Nodup ∧ (∀ a, a ∈ s.calls ↔ a ∈ as) ∧
      s.calls.Sublist as := by
  have : ∀ (as : List A) (s : Memoize.State A R), (∀ x ∈ s.mem, x.2 = f x.1) →
      (∀ a, a ∈ s.mem.map Prod.fst ↔ a ∈ s.calls) → s.calls.Nodup →
      ∃ s', Memoize.callAll f as s = (as.map f, s') ∧ s'.calls.Nodup ∧
        (∀ a, a ∈ s'.calls ↔ a ∈ s.calls ∨ a ∈ as) ∧ ∃ t, s'.calls = s.calls ++ t ∧ t.Sublist as := by
    intro as
    induction as with
    | nil => exact fun s _ _ h3 => ⟨s, rfl, h3, by simp, [], by simp, List.Sublist.refl _⟩
    | cons a as ih =>
      intro s h1 h2 h3
      have hl := memo_lookup f s.mem h1 a
      by_cases ha : a ∈ s.calls
      · rw [if_pos ((h2 a).2 ha)] at hl
        obtain ⟨s', e1, e2, e3, t, e4, e5⟩ := ih s h1 h2 h3
        refine ⟨s', ?_, e2, ?_, t, e4, e5.cons a⟩
        · simp [Memoize.callAll, Memoize.call, hl, e1]
        · intro b
          rw [e3, List.mem_cons]
          constructor
          · rintro (h | h)
            · exact Or.inl h
            · exact Or.inr (Or.inr h)
          · rintro (h | h | h)
            · exact Or.inl h
            · exact Or.inl (h ▸ ha)
            · exact Or.inr h
      · rw [if_neg (fun h => ha ((h2 a).1 h))] at hl
        obtain ⟨s', e1, e2, e3, t, e4, e5⟩ := ih ⟨(a, f a) :: s.mem, s.calls ++ [a]⟩
          (by
            intro x hx
            rcases List.mem_cons.1 hx with rfl | hx
            · rfl
            · exact h1 x hx)
          (by
            intro b
            simp only [List.map_cons, List.mem_cons, List.mem_append, h2, List.not_mem_nil, or_false]
            exact Or.comm)
          (by
            rw [List.nodup_append]
            refine ⟨h3, by simp, ?_⟩
            intro x hx y hy hxy
            simp only [List.mem_singleton] at hy
            exact ha (hy ▸ hxy ▸ hx))
        refine ⟨s', ?_, e2, ?_, a :: t, by rw [e4]; simp, e5.cons_cons a⟩
        · simp [Memoize.callAll, Memoize.call, hl, e1]
        · intro b
          rw [e3]
          simp only [List.mem_append, List.mem_cons, List.not_mem_nil, or_false]
          exact or_assoc
  obtain ⟨s, h1, h2, h3, t, h4, h5⟩ := this as ⟨[], []⟩ (by simp) (by simp) (by simp)
  refine ⟨s, h1, h2, by simpa using h3, ?_⟩
  simp only [List.nil_append] at h4
  rw [h4]
  exact h5

example : (Memoize.callAll (fun n : Nat => n * n) [3, 4, 3, 3, 5] ⟨[], []⟩).2.calls = [3, 4, 5] := rfl

/-! ## C41: `flag_set` -/

namespace FlagSet

theorem bit_true {w : Nat} (i : Nat) (h : i < w) : (bit (i : Int) true : Res (FlagSet w)) = .ok (1#w <<< i) := by
  unfold bit
  rw [if_pos ⟨by omega, by omega⟩]
  rfl

theorem bit_false {w : Nat} (i : Nat) (h : i < w) : (bit (i : Int) false : Res (FlagSet w)) = .ok 0#w := by
  unfold bit
  rw [if_pos ⟨by omega, by omega⟩]
  simp

theorem shl_getLsbD {w : Nat} (i j : Nat) (hj : j < w) : (1#w <<< i).getLsbD j = decide (j = i) := by
  simp only [BitVec.getLsbD_shiftLeft, BitVec.getLsbD_one]
  by_cases hji : j = i
  · subst hji; simp [hj]; omega
  · by_cases h2 : j < i
    · simp [h2, hji]
    · have : ¬ j - i = 0 := by omega
      simp [this, hji]

theorem get_eq {w : Nat} (i : Nat) (h : i < w) (d : FlagSet w) : get (i : Int) d = .ok (d.getLsbD i) := by
  unfold get
  rw [bit_true i h]
  simp only [Res.bind_ok]
  congr 1
  rw [Bool.eq_iff_iff]
  constructor
  · intro hne
    by_cases hd : d.getLsbD i = true
    · exact hd
    · exfalso
      simp only [bne_iff_ne, ne_eq] at hne
      apply hne
      apply BitVec.eq_of_getLsbD_eq
      intro j hj
      simp only [BitVec.getLsbD_and, BitVec.getLsbD_shiftLeft, BitVec.getLsbD_one, BitVec.getLsbD_zero]
      by_cases hji : j = i
      · subst hji; simp [hd]
      · by_cases h2 : j < i
        · simp [h2]
        · have : ¬ j - i = 0 := by omega
          simp [this]
  · intro hd
    simp only [bne_iff_ne, ne_eq]
    intro h0
    have := congrArg (fun x => BitVec.getLsbD x i) h0
    simp only [BitVec.getLsbD_and, hd, shl_getLsbD i i h, BitVec.getLsbD_zero] at this
    simp at this

end FlagSet

open FlagSet in
/-- `set( i, b )` makes flag `i` equal to `b` and changes no other flag. -/
theorem C41_set {w : Nat} (i j : Nat) (hi : i < w) (hj : j < w) (b : Bool) (d : FlagSet w) :
    ∃ d', set (i : Int) b d = .ok d' ∧ get (j : Int) d' = if j = i then .ok b else get (j : Int) d := by
  have hv : ∃ v : FlagSet w, (bit (i : Int) b : Res (FlagSet w)) = .ok v ∧
      v.getLsbD j = (b && decide (j = i)) := by
    cases b with
    | true => exact ⟨_, bit_true i hi, by rw [shl_getLsbD i j hj]; rfl⟩
    | false => exact ⟨_, bit_false i hi, by simp⟩
  obtain ⟨v, hv1, hv2⟩ := hv
  refine ⟨(d &&& ~~~(1#w <<< i)) ||| v, ?_, ?_⟩
  · simp only [FlagSet.set, bit_true i hi, hv1, Res.bind_ok]
  · rw [get_eq j hj, get_eq j hj]
    simp only [BitVec.getLsbD_or, BitVec.getLsbD_and, BitVec.getLsbD_not, shl_getLsbD i j hj, hv2]
    by_cases hji : j = i
    · simp [hji]
    · simp [hji, hj]

open FlagSet in
/-- `set( i )` sets flag `i`, `clear<i>()` clears it, and neither changes another flag. -/
theorem C41_set_clear {w : Nat} (i j : Nat) (hi : i < w) (hj : j < w) (d : FlagSet w) :
    (∃ d', setOn (i : Int) d = .ok d' ∧ get (j : Int) d' = if j = i then .ok true else get (j : Int) d) ∧
    (∃ d', clearFlag (i : Int) d = .ok d' ∧ get (j : Int) d' = if j = i then .ok false else get (j : Int) d) := by
  constructor
  · refine ⟨d ||| (1#w <<< i), by simp only [setOn, bit_true i hi, Res.bind_ok], ?_⟩
    rw [get_eq j hj, get_eq j hj]
    simp only [BitVec.getLsbD_or, shl_getLsbD i j hj]
    by_cases hji : j = i <;> simp [hji]
  · refine ⟨d &&& ~~~(1#w <<< i), by simp only [clearFlag, bit_true i hi, Res.bind_ok], ?_⟩
    rw [get_eq j hj, get_eq j hj]
    simp only [BitVec.getLsbD_and, BitVec.getLsbD_not, shl_getLsbD i j hj]
    by_cases hji : j = i <;> simp [hji, hj]

open FlagSet in
/-- `any()` is true iff some flag is set; after `clear()` none is. -/
theorem C41_any {w : Nat} (d : FlagSet w) :
    (any d = true ↔ ∃ i : Nat, i < w ∧ get (i : Int) d = .ok true) ∧ any (FlagSet.clear : FlagSet w) = false := by
  constructor
  · constructor
    · intro h
      by_cases hex : ∃ i : Nat, i < w ∧ get (i : Int) d = .ok true
      · exact hex
      · exfalso
        simp only [any, bne_iff_ne, ne_eq] at h
        apply h
        apply BitVec.eq_of_getLsbD_eq
        intro j hj
        rw [BitVec.getLsbD_zero]
        cases hd : d.getLsbD j with
        | false => rfl
        | true => exact absurd ⟨j, hj, by rw [get_eq j hj, hd]⟩ hex
    · rintro ⟨i, hi, h⟩
      rw [get_eq i hi] at h
      injection h with h
      simp only [any, bne_iff_ne, ne_eq]
      rintro rfl
      simp at h
  · simp [any, FlagSet.clear]

open FlagSet in
/-- Construction from a list sets exactly the listed flags; `set( list )` sets them in addition to those set before. -/
theorem C41_list {w : Nat} (is : List Nat) (h : ∀ i ∈ is, i < w) (d : FlagSet w) :
    ∃ d', setList (is.map Int.ofNat) d = .ok d' ∧
      ∀ j : Nat, j < w → get (j : Int) d' = if j ∈ is then .ok true else get (j : Int) d := by
  induction is generalizing d with
  | nil => exact ⟨d, rfl, fun j _ => by simp⟩
  | cons i is ih =>
    have hi : i < w := h i (by simp)
    obtain ⟨d', h1, h2⟩ := ih (fun x hx => h x (by simp [hx])) (d ||| (1#w <<< i))
    refine ⟨d', ?_, ?_⟩
    · have : (setOn (i : Int) d : Res (FlagSet w)) = .ok (d ||| (1#w <<< i)) := by
        simp only [setOn, bit_true i hi, Res.bind_ok]
      simp only [List.map_cons, setList]
      rw [show Int.ofNat i = (i : Int) from rfl, this]
      exact h1
    · intro j hj
      rw [h2 j hj, get_eq j hj, get_eq j hj]
      simp only [BitVec.getLsbD_or, shl_getLsbD i j hj]
      by_cases hji : j = i <;> simp [hji]

open FlagSet in
/-- Operations on different flags commute. -/
theorem C41_commute {w : Nat} (i j : Nat) (hi : i < w) (hj : j < w) (hij : i ≠ j) (a b : Bool) (d : FlagSet w) :
    (set (i : Int) a d >>= set (j : Int) b) = (set (j : Int) b d >>= set (i : Int) a) := by
  obtain ⟨d1, h1, _⟩ := C41_set i i hi hi a d
  obtain ⟨d2, h2, _⟩ := C41_set j j hj hj b d
  obtain ⟨d3, h3, _⟩ := C41_set j j hj hj b d1
  obtain ⟨d4, h4, _⟩ := C41_set i i hi hi a d2
  rw [h1, h2, Res.bind_ok, Res.bind_ok, h3, h4]
  congr 1
  apply BitVec.eq_of_getLsbD_eq
  intro k hk
  have e : ∀ (x : FlagSet w) (y : Bool), get (k : Int) x = .ok y → x.getLsbD k = y := by
    intro x y hx
    rw [get_eq k hk] at hx
    injection hx
  have g1 : get (k : Int) d1 = if k = i then .ok a else get (k : Int) d := by
    obtain ⟨x, hx1, hx2⟩ := C41_set i k hi hk a d
    rw [h1] at hx1; injection hx1 with hx1; subst hx1; exact hx2
  have g2 : get (k : Int) d2 = if k = j then .ok b else get (k : Int) d := by
    obtain ⟨x, hx1, hx2⟩ := C41_set j k hj hk b d
    rw [h2] at hx1; injection hx1 with hx1; subst hx1; exact hx2
  have g3 : get (k : Int) d3 = if k = j then .ok b else get (k : Int) d1 := by
    obtain ⟨x, hx1, hx2⟩ := C41_set j k hj hk b d1
    rw [h3] at hx1; injection hx1 with hx1; subst hx1; exact hx2
  have g4 : get (k : Int) d4 = if k = i then .ok a else get (k : Int) d2 := by
    obtain ⟨x, hx1, hx2⟩ := C41_set i k hi hk a d2
    rw [h4] at hx1; injection hx1 with hx1; subst hx1; exact hx2
  have : (get (k : Int) d3 : Res Bool) = get (k : Int) d4 := by
    rw [g3, g4, g1, g2]
    by_cases hki : k = i
    · have : ¬ k = j := fun h => hij (hki.symm.trans h)
      simp [hki, hij]
    · simp [hki]
  rw [get_eq k hk, get_eq k hk] at this
  injection this

/-- An index that does not fit the storage is undefined behaviour. -/
theorem C41_out_of_range {w : Nat} (i : Int) (h : i < 0 ∨ (w : Int) ≤ i) (d : FlagSet w) : FlagSet.get i d = .ub := by
  unfold FlagSet.get FlagSet.bit
  rw [if_neg (by omega)]
  rfl

example : FlagSet.setList [0, 5, 31] (0#32) = .ok 0x80000021#32 ∧ FlagSet.get 5 0x80000021#32 = .ok true ∧
    FlagSet.set 5 false 0x80000021#32 = .ok 0x80000001#32 ∧ FlagSet.get 32 0#32 = .ub := by decide

end Flut
