import Verif.Spec.Data
import Verif.Proofs.Containers

/-! Lemmas about headers, row-major data, storages and tables. -/

namespace Flut

/-! ### Vectors -/

section vec
variable {α : Type}

theorem vget_append_length (a : List α) (x : α) (b : List α) (i : Nat) (h : i = a.length) :
    vget (a ++ x :: b) i = .ok x := by
  subst h
  unfold vget
  simp

theorem vset_append_length (a : List α) (x y : α) (b : List α) (i : Nat) (h : i = a.length) :
    vset (a ++ x :: b) i y = .ok (a ++ y :: b) := by
  subst h
  unfold vset
  rw [if_pos (by simp)]
  simp

theorem vresize_grow (v : List α) (n : Nat) (x : α) (h : v.length ≤ n) :
    vresize v n x = v ++ List.replicate (n - v.length) x := by
  unfold vresize
  rw [List.take_of_length_le h]

theorem vget_eq {v : List α} {i : Nat} {x : α} (h : v[i]? = some x) : vget v i = .ok x := by
  unfold vget; rw [h]

end vec

/-! ### Headers -/

namespace Header

variable {L : Type} [DecidableEq L]

theorem find_eq (l : L) (h : Header L) : h.find l = .ok (FlatMap.val l h.indices) := by
  unfold find
  cases hf : FlatMap.find l h.indices with
  | none => rw [(FlatMap.val_none_iff _ _).2 ((FlatMap.find_none_iff _ _).1 hf)]
  | some k =>
    obtain ⟨v, h1, h2⟩ := FlatMap.find_some _ _ _ hf
    rw [h2]
    simp [h1]

/-- The header holds the list of labels. -/
structure Rep (dl : L) (h : Header L) (ls : List (Option L)) : Prop where
  labels : h.labels = ls.map (·.getD dl)
  find : ∀ l, FlatMap.val l h.indices = ls.findIdx? (· = some l)

theorem Rep.size {dl : L} {h : Header L} {ls : List (Option L)} (r : Rep dl h ls) : h.size = ls.length := by
  unfold Header.size; rw [r.labels]; simp

theorem Rep.shows {dl : L} {h : Header L} {ls : List (Option L)} (r : Rep dl h ls) : HeaderShows dl h ls := by
  refine ⟨r.size, ?_, fun l => by rw [find_eq, r.find]⟩
  intro i hi
  unfold Header.get
  apply vget_eq
  rw [r.labels]
  simp [hi]

theorem findIdx?_eq_none (ls : List (Option L)) (l : L) :
    ls.findIdx? (· = some l) = none ↔ some l ∉ ls := by
  rw [List.findIdx?_eq_none_iff]
  constructor
  · intro h hm
    have := h _ hm
    simp at this
  · intro h x hx
    simp only [decide_eq_false_iff_not]
    rintro rfl
    exact h hx

theorem Rep.fresh {dl : L} {h : Header L} {ls : List (Option L)} (r : Rep dl h ls) (l : L) :
    (FlatMap.val l h.indices = none) ↔ some l ∉ ls := by
  rw [r.find, findIdx?_eq_none]

theorem rep_new (dl : L) (n : Nat) : Rep dl (Header.new dl n) (List.replicate n none) := by
  refine ⟨by simp [Header.new], ?_⟩
  intro l
  have : (List.replicate n (none : Option L)).findIdx? (· = some l) = none := by
    rw [findIdx?_eq_none]; simp
  rw [this]; rfl

theorem rep_clear (dl : L) : Rep dl (Header.clear : Header L) [] := ⟨rfl, fun _ => rfl⟩

theorem rep_resize {dl : L} {h : Header L} {ls : List (Option L)} (r : Rep dl h ls) (n : Nat) (hn : ls.length ≤ n) :
    ∃ h', h.resize dl n = .ok h' ∧ Rep dl h' (ls ++ List.replicate (n - ls.length) none) := by
  have hs := r.size
  refine ⟨_, if_pos (by omega), ?_, ?_⟩
  · simp only
    rw [vresize_grow _ _ _ (by rw [r.labels]; simpa using hn), r.labels]
    simp
  · intro l
    simp only
    rw [r.find, List.findIdx?_append]
    have : (List.replicate (n - ls.length) (none : Option L)).findIdx? (· = some l) = none := by
      rw [findIdx?_eq_none]; simp
    rw [this]
    simp

theorem resize_throws {dl : L} {h : Header L} {ls : List (Option L)} (r : Rep dl h ls) (n : Nat) (hn : n < ls.length) :
    h.resize dl n = .throws .assertion := by
  have hs := r.size
  exact if_neg (by omega)

theorem rep_snoc {dl : L} {h : Header L} {ls : List (Option L)} (r : Rep dl h ls) (l : L) (hl : some l ∉ ls) :
    Rep dl ⟨h.labels ++ [l], h.indices.assign 0 l ls.length⟩ (ls ++ [some l]) := by
  refine ⟨by simp [r.labels], ?_⟩
  intro l'
  simp only
  rw [FlatMap.assign_val, r.find, List.findIdx?_append]
  by_cases h : l = l'
  · subst h
    rw [if_pos rfl, (findIdx?_eq_none ls l).2 hl]
    simp [List.findIdx?_cons]
  · rw [if_neg h]
    have : ([some l] : List (Option L)).findIdx? (· = some l') = none := by
      rw [findIdx?_eq_none]; simp; exact fun h2 => h h2.symm
    rw [this]
    simp

theorem rep_add {dl : L} {h : Header L} {ls : List (Option L)} (r : Rep dl h ls) (l : L) (hl : some l ∉ ls) :
    ∃ h', h.add l = .ok (ls.length, h') ∧ Rep dl h' (ls ++ [some l]) := by
  refine ⟨_, ?_, rep_snoc r l hl⟩
  unfold Header.add
  rw [find_eq, (r.fresh l).2 hl]
  have hs : h.labels.length = ls.length := by rw [r.labels]; simp
  simp [hs]

theorem add_throws {dl : L} {h : Header L} {ls : List (Option L)} (r : Rep dl h ls) (l : L) (hl : some l ∈ ls) :
    h.add l = .throws .assertion := by
  unfold Header.add
  rw [find_eq]
  simp only [Res.bind_ok]
  rw [if_neg (fun h2 => ((r.fresh l).1 h2) hl)]

/-- Labelling the last, so far unlabelled, channel. -/
theorem rep_set_last {dl : L} {h : Header L} {ls : List (Option L)} (r : Rep dl h (ls ++ [none])) (l : L)
    (hl : some l ∉ ls) :
    ∃ h', h.set ls.length l = .ok (ls.length, h') ∧ Rep dl h' (ls ++ [some l]) := by
  have hs := r.size
  have hlab : h.labels = ls.map (·.getD dl) ++ [dl] := by rw [r.labels]; simp
  have hfresh : FlatMap.val l h.indices = none := (r.fresh l).2 (by simpa using hl)
  refine ⟨⟨ls.map (·.getD dl) ++ [l], h.indices.assign 0 l ls.length⟩, ?_, ?_⟩
  · unfold Header.set
    rw [find_eq, hfresh]
    simp only [Res.bind_ok]
    rw [if_pos ⟨by rw [hs]; simp, trivial⟩, hlab]
    rw [vset_append_length _ _ _ _ _ (by simp)]
    simp
  · have r0 : Rep dl ⟨ls.map (·.getD dl), h.indices⟩ ls := by
      refine ⟨rfl, ?_⟩
      intro l'
      have := r.find l'
      rw [List.findIdx?_append] at this
      have e : ([none] : List (Option L)).findIdx? (· = some l') = none := by
        rw [findIdx?_eq_none]; simp
      rw [e] at this
      simpa using this
    exact rep_snoc r0 l hl

theorem set_last_throws {dl : L} {h : Header L} {ls : List (Option L)} (r : Rep dl h ls) (i : Nat) (l : L)
    (hl : some l ∈ ls) : h.set i l = .throws .assertion := by
  unfold Header.set
  rw [find_eq]
  simp only [Res.bind_ok]
  rw [if_neg (fun h2 => ((r.fresh l).1 h2.2) hl)]

theorem rep_run {dl : L} {h : Header L} {ls : List (Option L)} (r : Rep dl h ls) (op : Op L) :
    Agree (Rep dl) (Header.run dl op h) (HeaderSpec.step op ls) := by
  cases op with
  | add l =>
    by_cases hl : some l ∈ ls
    · simp only [Header.run, HeaderSpec.step, add_throws r l hl, if_pos hl]; rfl
    · obtain ⟨h', h1, h2⟩ := rep_add r l hl
      simp only [Header.run, HeaderSpec.step, h1, if_neg hl]; exact h2
  | append l =>
    obtain ⟨h1, e1, r1⟩ := rep_resize r (ls.length + 1) (by omega)
    rw [show ls.length + 1 - ls.length = 1 by omega] at r1
    have hs := r1.size
    simp only [List.replicate_one, List.length_append, List.length_cons, List.length_nil] at hs
    by_cases hl : some l ∈ ls
    · simp only [Header.run, HeaderSpec.step, Header.append, r.size, e1, if_pos hl, Res.bind_ok]
      rw [set_last_throws r1 _ l (by simp [hl])]; rfl
    · obtain ⟨h', e2, r2⟩ := rep_set_last (by simpa using r1) l hl
      simp only [Header.run, HeaderSpec.step, Header.append, r.size, e1, if_neg hl, Res.bind_ok, hs]
      rw [show ls.length + (0 + 1) - 1 = ls.length by omega, e2]; exact r2
  | resize n =>
    by_cases hn : n < ls.length
    · simp only [Header.run, HeaderSpec.step, resize_throws r n hn, if_pos hn]; rfl
    · obtain ⟨h', h1, h2⟩ := rep_resize r n (by omega)
      simp only [Header.run, HeaderSpec.step, h1, if_neg hn]; exact h2
  | clear => exact rep_clear dl

end Header

theorem Agree.bind {α β γ δ : Type} {R : α → β → Prop} {S : γ → δ → Prop} {x : Res α} {y : Res β}
    {f : α → Res γ} {g : β → Res δ} (h : Agree R x y) (hf : ∀ a b, R a b → Agree S (f a) (g b)) :
    Agree S (x >>= f) (y >>= g) := by
  cases x <;> cases y <;> simp_all [Agree]

theorem Header.rep_runAll {L : Type} [DecidableEq L] {dl : L} (ops : List (Header.Op L)) {h : Header L}
    {ls : List (Option L)} (r : Header.Rep dl h ls) :
    Agree (Header.Rep dl) (Header.runAll dl ops h) (HeaderSpec.run ops ls) := by
  induction ops generalizing h ls with
  | nil => exact r
  | cons op ops ih => exact Agree.bind (Header.rep_run r op) (fun a b hab => ih hab)

/-! ### Rows laid out one after the other -/

section flat
variable {α : Type}

theorem flatten_length (rows : List (List α)) (n : Nat) (h : ∀ r ∈ rows, r.length = n) :
    rows.flatten.length = rows.length * n := by
  induction rows with
  | nil => simp
  | cons r rows ih =>
    rw [List.flatten_cons, List.length_append, ih (fun x hx => h x (by simp [hx])), h r (by simp),
      List.length_cons, Nat.add_mul]
    omega

theorem flatten_get (rows : List (List α)) (n : Nat) (h : ∀ r ∈ rows, r.length = n) (f c : Nat) (hc : c < n) :
    rows.flatten[f * n + c]? = rows[f]?.bind (·[c]?) := by
  induction rows generalizing f with
  | nil => simp
  | cons r rows ih =>
    have hr := h r (by simp)
    rw [List.flatten_cons]
    cases f with
    | zero =>
      rw [Nat.zero_mul, Nat.zero_add, List.getElem?_append_left (by omega)]
      simp
    | succ f =>
      rw [List.getElem?_append_right (by rw [hr, Nat.add_mul]; omega), hr]
      rw [show (f + 1) * n + c - n = f * n + c by rw [Nat.add_mul]; omega]
      rw [ih (fun x hx => h x (by simp [hx]))]
      simp

theorem flatten_set (rows : List (List α)) (n : Nat) (h : ∀ r ∈ rows, r.length = n) (f c : Nat) (hc : c < n)
    (x : α) : rows.flatten.set (f * n + c) x = (rows.modify f (·.set c x)).flatten := by
  induction rows generalizing f with
  | nil => simp
  | cons r rows ih =>
    have hr := h r (by simp)
    rw [List.flatten_cons]
    cases f with
    | zero =>
      rw [Nat.zero_mul, Nat.zero_add, List.set_append_left _ _ (by omega)]
      simp
    | succ f =>
      rw [List.set_append_right _ _ (by rw [hr, Nat.add_mul]; omega), hr]
      rw [show (f + 1) * n + c - n = f * n + c by rw [Nat.add_mul]; omega]
      rw [ih (fun x hx => h x (by simp [hx]))]
      simp

theorem modify_lengths (rows : List (List α)) (n : Nat) (h : ∀ r ∈ rows, r.length = n) (f c : Nat) (x : α) :
    ∀ r ∈ rows.modify f (·.set c x), r.length = n := by
  intro r hr
  obtain ⟨i, hi, rfl⟩ := List.mem_iff_getElem.1 hr
  rw [List.getElem_modify]
  have hi' : i < rows.length := by simpa using hi
  split
  · rw [List.length_set]; exact h _ (List.getElem_mem _)
  · exact h _ (List.getElem_mem _)

theorem flat_bound (f c R n : Nat) (hf : f < R) (hc : c < n) : f * n + c < R * n := by
  have : (f + 1) * n ≤ R * n := Nat.mul_le_mul_right n hf
  rw [Nat.add_mul] at this
  omega

end flat

end Flut
