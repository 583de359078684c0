import Verif.Model.DataText
import Verif.Spec.DataText
import Verif.Proofs.Table

/-! Lemmas about text output and named writes. -/

namespace Flut

open Spec

/-- A line of fields. -/
def line (xs : List Str) : Str := [(9 : Byte)].intercalate xs ++ [10]

theorem intercalate_cons_cons (x y : Str) (r : List Str) :
    [(9 : Byte)].intercalate (x :: y :: r) = x ++ 9 :: [(9 : Byte)].intercalate (y :: r) := by
  simp [List.intercalate, List.intersperse]

theorem intercalate_one (x : Str) : [(9 : Byte)].intercalate [x] = x := by simp [List.intercalate]

theorem lineLoop_eq (xs : List Str) (cell : Nat → Res Str) (h : ∀ i (hi : i < xs.length), cell i = .ok xs[i]) (k ci : Nat)
    (hk : ci + k = xs.length) :
    lineLoop xs.length cell k ci = .ok (if k = 0 then [] else line (xs.drop ci)) := by
  induction k generalizing ci with
  | zero => rfl
  | succ k ih =>
    have hci : ci < xs.length := by omega
    unfold lineLoop
    rw [h ci hci, ih (ci + 1) (by omega)]
    simp only [Res.bind_ok, Nat.add_eq_zero_iff, one_ne_zero, and_false, if_false]
    rw [List.drop_eq_getElem_cons hci]
    rcases Nat.eq_zero_or_pos k with rfl | hpos
    · rw [if_pos (by omega), List.drop_eq_nil_of_le (by omega)]
      simp [line, intercalate_one]
    · rw [if_neg (by omega), if_neg (by omega)]
      rw [List.drop_eq_getElem_cons (show ci + 1 < xs.length by omega)]
      unfold line
      rw [intercalate_cons_cons]
      simp only [List.append_assoc, List.cons_append, List.nil_append]

theorem nine_not_mem_ten {xs : List Str} (h : ∀ x ∈ xs, PlainField x) : (10 : Byte) ∉ [(9 : Byte)].intercalate xs := by
  induction xs with
  | nil => simp [List.intercalate]
  | cons x xs ih =>
    cases xs with
    | nil => rw [intercalate_one]; exact (h x (by simp)).2
    | cons y r =>
      rw [intercalate_cons_cons]
      simp only [List.mem_append, List.mem_cons, not_or]
      exact ⟨(h x (by simp)).2, by decide, ih fun z hz => h z (by simp [hz])⟩

theorem readTable_lines (rows : List (List Str)) (hne : ∀ r ∈ rows, r ≠ []) (h : ∀ r ∈ rows, ∀ x ∈ r, PlainField x) :
    readTable (rows.map line).flatten = rows := by
  unfold readTable
  induction rows with
  | nil => rfl
  | cons r rows ih =>
    have e : ((r :: rows).map line).flatten = [(9 : Byte)].intercalate r ++ 10 :: (rows.map line).flatten := by
      simp [line]
    rw [e, List.splitOn_append_cons_self_of_not_mem (nine_not_mem_ten (h r (by simp))),
      List.dropLast_cons_of_ne_nil (List.splitOn_ne_nil _ _), List.map_cons,
      ih (fun r' hr' => hne r' (by simp [hr'])) (fun r' hr' => h r' (by simp [hr'])),
      List.splitOn_intercalate _ (fun l hl => (h r (by simp) l hl).1) (hne r (by simp))]

namespace Storage

variable {α L : Type} [DecidableEq L]

theorem framesLoop_eq {dl : L} {s : Storage α L} {m : Matrix α L} (r : Rep dl s m) (sh : α → Str)
    (hc : 0 < m.labels.length) (k fi : Nat) (hk : fi + k = m.rows.length) :
    framesLoop sh s k fi = .ok (((m.rows.drop fi).map (·.map sh)).map line).flatten := by
  induction k generalizing fi with
  | zero => rw [List.drop_eq_nil_of_le (by omega)]; rfl
  | succ k ih =>
    have hf : fi < m.rows.length := by omega
    have hw : m.rows[fi].length = m.labels.length := r.wf _ (List.getElem_mem _)
    have e : s.channels = (m.rows[fi].map sh).length := by rw [r.channels]; simp [hw]
    unfold framesLoop
    rw [e, lineLoop_eq (m.rows[fi].map sh) _ ?_ _ 0 (Nat.zero_add _), ih (fi + 1) (by omega)]
    · simp only [Res.bind_ok]
      rw [if_neg (show ¬ (m.rows[fi].map sh).length = 0 by rw [List.length_map]; omega), List.drop_eq_getElem_cons hf]
      rfl
    · intro i hi
      have hi' : i < m.rows[fi].length := by simpa using hi
      obtain ⟨x, h1, h2⟩ := r.get fi i hf (by omega)
      rw [h2]
      simp only [hf, List.getElem?_eq_getElem, Option.bind_some, hi', Option.some.injEq] at h1
      simp [h1]

theorem text_eq {dl : L} {s : Storage α L} {m : Matrix α L} (r : Rep dl s m) (shl : L → Str) (sh : α → Str)
    (hc : 0 < m.labels.length) :
    s.text shl sh = .ok (((m.labels.map fun l => shl (l.getD dl)) :: m.rows.map (·.map sh)).map line).flatten := by
  unfold text
  have e : s.channels = (m.labels.map fun l => shl (l.getD dl)).length := by rw [r.channels]; simp
  rw [e, lineLoop_eq (m.labels.map fun l => shl (l.getD dl)) _ ?_ _ 0 (Nat.zero_add _), r.frames,
    framesLoop_eq r sh hc _ 0 (by omega)]
  · simp only [Res.bind_ok]
    rw [if_neg (show ¬ (m.labels.map fun l => shl (l.getD dl)).length = 0 by rw [List.length_map]; omega)]
    simp
  · intro i hi
    have hi' : i < m.labels.length := by simpa using hi
    rw [r.labels.shows.get i hi']
    simp

end Storage

namespace Table

variable {α L : Type} [DecidableEq L]

omit [DecidableEq L] in
theorem labelsLoop_eq (shl : L → Str) (pre : Str) (ls : List L) :
    pre ++ labelsLoop shl ls ++ [10] = line (pre :: ls.map shl) := by
  induction ls generalizing pre with
  | nil => simp [labelsLoop, line]
  | cons l ls ih =>
    have := ih (shl l)
    simp only [labelsLoop, line, List.map_cons, intercalate_cons_cons] at this ⊢
    simp only [List.append_assoc, List.cons_append] at this ⊢
    rw [← this]
    simp

theorem cellsLoop_eq {dl : L} {t : Table α L} {m : LMatrix α L} (r : Rep dl t m) (sh : α → Str) (row : Nat)
    (hr : row < m.rows.length) (k col : Nat) (hk : col + k = m.colLabels.length) :
    cellsLoop sh t row k col = .ok (labelsLoop sh (m.rows[row].drop col)) := by
  have hw : m.rows[row].length = m.colLabels.length := r.wf _ (List.getElem_mem _)
  induction k generalizing col with
  | zero => rw [List.drop_eq_nil_of_le (by omega)]; rfl
  | succ k ih =>
    obtain ⟨x, h1, h2⟩ := r.shows.cell row col hr (by omega)
    have hc : col < m.rows[row].length := by omega
    simp only [hr, List.getElem?_eq_getElem, Option.bind_some, hc, Option.some.injEq] at h1
    unfold cellsLoop
    rw [h2, ih (col + 1) (by omega), List.drop_eq_getElem_cons hc, h1]
    rfl

theorem rowsLoop_eq {dl : L} {t : Table α L} {m : LMatrix α L} (r : Rep dl t m) (shl : L → Str) (sh : α → Str) (k row : Nat)
    (hk : row + k = m.rows.length) :
    rowsLoop shl sh t k row = .ok ((((m.rowLabels.zip m.rows).drop row).map
      fun p => shl (p.1.getD dl) :: p.2.map sh).map line).flatten := by
  have hz : (m.rowLabels.zip m.rows).length = m.rows.length := by simp [← r.rows]
  induction k generalizing row with
  | zero => rw [List.drop_eq_nil_of_le (by omega)]; rfl
  | succ k ih =>
    have hr : row < m.rows.length := by omega
    have hr' : row < m.rowLabels.length := by rw [← r.rows]; exact hr
    unfold rowsLoop
    rw [r.rowLabels.shows.get row hr', r.colLabels.size, cellsLoop_eq r sh row hr _ 0 (by omega), ih (row + 1) (by omega),
      List.drop_eq_getElem_cons (show row < (m.rowLabels.zip m.rows).length by omega)]
    simp only [Res.bind_ok, List.drop_zero, List.map_cons, List.flatten_cons, List.getElem_zip]
    rw [← labelsLoop_eq]

theorem text_eq {dl : L} {t : Table α L} {m : LMatrix α L} (r : Rep dl t m) (shl : L → Str) (sh : α → Str) :
    t.text shl sh = .ok (((b!"Row" :: m.colLabels.map fun l => shl (l.getD dl)) ::
      (m.rowLabels.zip m.rows).map fun p => shl (p.1.getD dl) :: p.2.map sh).map line).flatten := by
  unfold text
  rw [r.rowLabels.size, ← r.rows, rowsLoop_eq r shl sh _ 0 (by omega), r.colLabels.labels]
  simp only [Res.bind_ok, List.drop_zero, List.map_cons, List.flatten_cons]
  have := labelsLoop_eq shl b!"Row" (m.colLabels.map (·.getD dl))
  rw [List.map_map] at this
  rw [show (b!"\n" : Str) = [10] from rfl, this]
  rfl

end Table

theorem vecTextLoop_eq {α : Type} (sh : α → Str) (x : α) (xs : List α) :
    vecTextLoop sh true (x :: xs) = [(9 : Byte)].intercalate ((x :: xs).map sh) := by
  have key : ∀ (xs : List α) (x : α), sh x ++ vecTextLoop sh false xs = [(9 : Byte)].intercalate ((x :: xs).map sh) := by
    intro xs
    induction xs with
    | nil => intro x; simp [vecTextLoop]
    | cons y ys ih =>
      intro x
      simp only [vecTextLoop, List.map_cons, intercalate_cons_cons] at ih ⊢
      rw [← ih y]
      simp
  rw [← key]
  simp [vecTextLoop]

namespace Storage

variable {α L : Type} [DecidableEq L]

theorem findIdx?_append_mem (ls : List (Option L)) (l l' : L) (h : some l' ∈ ls) :
    (ls ++ [some l]).findIdx? (· = some l') = ls.findIdx? (· = some l') := by
  rw [List.findIdx?_append]
  cases hf : ls.findIdx? (· = some l') with
  | none => exact absurd h ((Header.findIdx?_eq_none _ _).1 hf)
  | some c => rfl

/-- Writing to a known column of the last row. -/
theorem valueAt_set (m : Matrix α L) (wf : ∀ r ∈ m.rows, r.length = m.labels.length) (l : L) (c : Nat)
    (hc : m.labels.findIdx? (· = some l) = some c) (n : Nat) (hn : n < m.rows.length) (x : α) (f : Nat) (l' : L) :
    valueAt ⟨m.labels, m.rows.modify n (·.set c x)⟩ f l' = if f = n ∧ l' = l then some x else valueAt m f l' := by
  have hcl : c < m.labels.length := (List.findIdx?_eq_some_iff_getElem.1 hc).1
  unfold valueAt
  dsimp only
  cases hc' : m.labels.findIdx? (· = some l') with
  | none =>
    have : l' ≠ l := by rintro rfl; rw [hc] at hc'; cases hc'
    simp [this]
  | some c' =>
    simp only [Option.bind_eq_bind, Option.bind_some]
    rw [List.getElem?_modify]
    by_cases hf : f = n
    · subst hf
      have hw := wf _ (List.getElem_mem hn)
      simp only [hn, List.getElem?_eq_getElem, if_true, Option.map_eq_map, Option.map_some, Option.bind_some, true_and]
      by_cases hll : l' = l
      · subst hll
        rw [hc] at hc'
        simp only [Option.some.injEq] at hc'
        subst hc'
        rw [if_pos rfl, List.getElem?_set_self (by omega)]
      · rw [if_neg hll, List.getElem?_set_ne]
        rintro rfl
        have h1 := (List.findIdx?_eq_some_iff_getElem.1 hc).2.1
        have h2 := (List.findIdx?_eq_some_iff_getElem.1 hc').2.1
        simp only [decide_eq_true_eq] at h1 h2
        rw [h1] at h2
        simp only [Option.some.injEq] at h2
        exact hll h2.symm
    · simp [hf, Ne.symm hf]

/-- A write in one column leaves the other cells. -/
theorem cellAt_set (m : Matrix α L) (l : L) (c : Nat) (hc : m.labels.findIdx? (· = some l) = some c) (n f k : Nat) (x : α)
    (h : ¬ (f = n ∧ m.labels[k]? = some (some l))) :
    cellAt (⟨m.labels, m.rows.modify n (·.set c x)⟩ : Matrix α L) f k = cellAt m f k := by
  unfold cellAt
  dsimp only
  rw [List.getElem?_modify]
  by_cases hf : f = n
  · subst hf
    cases hr : m.rows[f]? with
    | none => simp
    | some row =>
      simp only [if_true, Option.map_eq_map, Option.map_some, Option.bind_eq_bind, Option.bind_some]
      rw [List.getElem?_set_ne]
      rintro rfl
      obtain ⟨h1, h2, _⟩ := List.findIdx?_eq_some_iff_getElem.1 hc
      exact h ⟨rfl, by rw [List.getElem?_eq_getElem h1]; simpa using h2⟩
  · simp [Ne.symm hf]

theorem rep_putLabel {dl : L} {s : Storage α L} {m : Matrix α L} (r : Rep dl s m) (dv : α) (l : L) (x : α)
    (hf : 0 < m.rows.length) :
    ∃ s' m', s.putLabel dl dv l x = .ok s' ∧ Rep dl s' m' ∧ m'.rows.length = m.rows.length ∧
      (∀ l', some l' ∈ m'.labels ↔ some l' ∈ m.labels ∨ l' = l) ∧
      valueAt m' (m.rows.length - 1) l = some x ∧
      (∀ f l', some l' ∈ m.labels → ¬ (f = m.rows.length - 1 ∧ l' = l) → valueAt m' f l' = valueAt m f l') ∧
      m'.labels = (if some l ∈ m.labels then m.labels else m.labels ++ [some l]) ∧
      (∀ f c, c < m.labels.length → ¬ (f = m.rows.length - 1 ∧ m.labels[c]? = some (some l)) → cellAt m' f c = cellAt m f c) ∧
      (some l ∉ m.labels → ∀ f, f + 1 < m.rows.length → valueAt m' f l = some dv) := by
  -- a known column
  have known : ∀ (s : Storage α L) (m : Matrix α L) (c : Nat), Rep dl s m → 0 < m.rows.length →
      m.labels.findIdx? (· = some l) = some c →
      ∃ s', s.putLast c x = .ok s' ∧ Rep dl s' ⟨m.labels, m.rows.modify (m.rows.length - 1) (·.set c x)⟩ := by
    intro s m c r hf hc
    have hcl : c < m.labels.length := (List.findIdx?_eq_some_iff_getElem.1 hc).1
    obtain ⟨s', h1, h2⟩ := rep_put r (m.rows.length - 1) c x (by omega) hcl
    refine ⟨s', ?_, h2⟩
    unfold putLast
    have hd : s.data.isEmpty = false := by
      rw [List.isEmpty_eq_false_iff, ← List.length_pos_iff, r.dataLength]
      exact Nat.mul_pos hf (by omega)
    rw [hd, r.frames, if_neg (by decide), if_neg (by omega), h1]
  by_cases hl : some l ∈ m.labels
  · obtain ⟨c, hc⟩ : ∃ c, m.labels.findIdx? (· = some l) = some c := by
      cases hf : m.labels.findIdx? (· = some l) with
      | none => exact absurd hl ((Header.findIdx?_eq_none _ _).1 hf)
      | some c => exact ⟨c, rfl⟩
    obtain ⟨s', h1, h2⟩ := known s m c r hf hc
    refine ⟨s', _, ?_, h2, by simp, ?_, ?_, ?_, (if_pos hl).symm, fun f k _ hk => cellAt_set m l c hc _ f k x hk,
      fun h => absurd hl h⟩
    · unfold putLabel
      rw [(rep_findOrAdd r l dv).1 c hc]
      exact h1
    · intro l'
      constructor
      · exact Or.inl
      · rintro (h | rfl)
        · exact h
        · exact hl
    · rw [valueAt_set m r.wf l c hc _ (by omega)]
      simp
    · intro f l' _ hne
      rw [valueAt_set m r.wf l c hc _ (by omega), if_neg hne]
  · obtain ⟨s1, h1, r1⟩ := (rep_findOrAdd r l dv).2 hl
    have hc : (m.labels ++ [some l]).findIdx? (· = some l) = some m.labels.length := findIdx?_snoc m.labels l hl
    obtain ⟨s', h2, r2⟩ := known s1 _ m.labels.length r1 (by simpa using hf) hc
    refine ⟨s', _, ?_, r2, by simp, ?_, ?_, ?_, (if_neg hl).symm, ?_, ?_⟩
    · unfold putLabel
      rw [h1]
      exact h2
    · intro l'
      simp
    · rw [valueAt_set ⟨m.labels ++ [some l], m.rows.map (· ++ [dv])⟩ r1.wf l _ hc _ (by simp; omega)]
      simp
    · intro f l' hl' hne
      rw [valueAt_set ⟨m.labels ++ [some l], m.rows.map (· ++ [dv])⟩ r1.wf l _ hc _ (by simp; omega),
        if_neg (by simpa using hne)]
      unfold valueAt
      dsimp only
      rw [findIdx?_append_mem _ _ _ hl']
      cases hc' : m.labels.findIdx? (· = some l') with
      | none => rfl
      | some c' =>
        simp only [Option.bind_eq_bind, Option.bind_some, List.getElem?_map]
        cases hr : m.rows[f]? with
        | none => rfl
        | some row =>
          simp only [Option.map_some, Option.bind_some]
          rw [List.getElem?_append_left]
          rw [r.wf row (List.mem_of_getElem? hr)]
          exact (List.findIdx?_eq_some_iff_getElem.1 hc').1
    · intro f k hk hne
      rw [cellAt_set ⟨m.labels ++ [some l], m.rows.map (· ++ [dv])⟩ l _ hc _ f k x (by
        simpa [List.getElem?_append_left hk] using hne)]
      unfold cellAt
      simp only [List.getElem?_map, Option.bind_eq_bind]
      cases hr : m.rows[f]? with
      | none => rfl
      | some row =>
        simp only [Option.map_some, Option.bind_some]
        rw [List.getElem?_append_left]
        rw [r.wf row (List.mem_of_getElem? hr)]
        exact hk
    · intro _ f hfl
      rw [valueAt_set ⟨m.labels ++ [some l], m.rows.map (· ++ [dv])⟩ r1.wf l _ hc _ (by simp; omega),
        if_neg (by simp; omega)]
      unfold valueAt
      dsimp only
      rw [hc]
      have hlt : f < m.rows.length := by omega
      simp only [Option.bind_eq_bind, Option.bind_some, List.getElem?_map, List.getElem?_eq_getElem hlt, Option.map_some]
      rw [List.getElem?_append_right (by rw [r.wf _ (List.getElem_mem hlt)]), r.wf _ (List.getElem_mem hlt)]
      simp

theorem putLabel_none {dl : L} {s : Storage α L} {m : Matrix α L} (r : Rep dl s m) (dv : α) (l : L) (x : α)
    (hf : m.rows = []) : s.putLabel dl dv l x = .throws .assertion := by
  have key : ∀ (s : Storage α L) (m : Matrix α L) (c : Nat), Rep dl s m → m.rows = [] →
      s.putLast c x = .throws .assertion := by
    intro s m c r hf
    unfold putLast
    rw [r.data, hf]
    rfl
  unfold putLabel
  by_cases hl : some l ∈ m.labels
  · obtain ⟨c, hc⟩ : ∃ c, m.labels.findIdx? (· = some l) = some c := by
      cases hf : m.labels.findIdx? (· = some l) with
      | none => exact absurd hl ((Header.findIdx?_eq_none _ _).1 hf)
      | some c => exact ⟨c, rfl⟩
    rw [(rep_findOrAdd r l dv).1 c hc]
    exact key s m c r hf
  · obtain ⟨s1, h1, r1⟩ := (rep_findOrAdd r l dv).2 hl
    rw [h1]
    exact key s1 _ _ r1 (by simp [hf])

end Storage

end Flut
