import Verif.Spec.DataThrow
import Verif.Proofs.DataText

/-!
# Lemmas on storages and tables after an exception
-/

namespace Flut

/-- The outcome that goes with an optional exception. -/
def outcomeOf : Option Exn → Res Unit
  | none => .ok ()
  | some e => .throws e

theorem outcomeOf_inj {a b : Option Exn} (h : outcomeOf a = outcomeOf b) : a = b := by
  cases a <;> cases b <;> simp_all [outcomeOf]

namespace Storage

variable {α L : Type} [DecidableEq L]

theorem addChannelDataLeft_of_ok {dl : L} {dv : α} {l : L} {xs : List α} {s s' : Storage α L}
    (h : s.addChannelData dl dv l xs = .ok s') : s.addChannelDataLeft dl dv l xs = (s', .ok ()) := by
  unfold addChannelData at h
  obtain ⟨s1, h1, h⟩ := Res.bind_eq_ok.1 h
  obtain ⟨⟨i, ls⟩, h2, h⟩ := Res.bind_eq_ok.1 h
  unfold addChannelDataLeft
  rw [h1]
  simp only [h2]
  change putColumn _ 0 xs _ = .ok s' at h
  rw [h]
  rfl

theorem rep_call {dl : L} {s : Storage α L} {m : Matrix α L} (dv : α) (r : Rep dl s m) (c : Call α L) :
    Rep dl (call dl dv c s).1 (m.call dv c).1 ∧ (call dl dv c s).2 = outcomeOf (m.call dv c).2 := by
  have last : ∀ (s : Storage α L) (m : Matrix α L) (k : Nat) (x : α), Rep dl s m → k < m.labels.length →
      Rep dl (leftBy s (s.putLast k x)).1 (m.putLast k x).1 ∧
        (leftBy s (s.putLast k x)).2 = outcomeOf (m.putLast k x).2 := by
    intro s m k x r hk
    unfold Matrix.putLast
    by_cases hf : m.rows = []
    · rw [if_pos hf]
      have : s.putLast k x = .throws .assertion := by
        unfold putLast
        rw [r.data, hf]
        rfl
      rw [this]
      exact ⟨r, rfl⟩
    · rw [if_neg hf]
      have hp : 0 < m.rows.length := List.length_pos_iff.2 hf
      obtain ⟨s', h1, h2⟩ := rep_put r (m.rows.length - 1) k x (by omega) hk
      have : s.putLast k x = .ok s' := by
        unfold putLast
        have hd : s.data.isEmpty = false := by
          rw [List.isEmpty_eq_false_iff, ← List.length_pos_iff, r.dataLength]
          exact Nat.mul_pos hp (by omega)
        rw [hd, r.frames, if_neg (by decide), if_neg (by omega), h1]
      rw [this]
      exact ⟨h2, rfl⟩
  cases c with
  | putLabel l x =>
    simp only [call, Matrix.call, putLabelLeft, findChannel]
    rw [Header.find_eq, r.labels.find]
    cases hc : m.labels.findIdx? (· = some l) with
    | some k => exact last s m k x r (List.findIdx?_eq_some_iff_getElem.1 hc).1
    | none =>
      obtain ⟨s1, h1, r1⟩ := rep_addChannel r l dv ((Header.findIdx?_eq_none _ _).1 hc)
      simp only [h1]
      exact last s1 _ _ x r1 (by show m.labels.length < (m.labels ++ [some l]).length; simp)
  | op op =>
    cases op with
    | addChannel l v =>
      simp only [call, Matrix.call]
      by_cases hl : some l ∈ m.labels
      · obtain ⟨s', h1, h2⟩ := addChannel_throws r l v hl
        rw [h1, if_pos hl]; exact ⟨h2, rfl⟩
      · obtain ⟨s', h1, h2⟩ := rep_addChannel r l v hl
        rw [h1, if_neg hl]; exact ⟨h2, rfl⟩
    | addChannelData l xs =>
      simp only [call, Matrix.call]
      by_cases hl : some l ∈ m.labels
      · obtain ⟨s1, h1, r1⟩ := rep_resize r (max m.rows.length xs.length) (m.labels.length + 1) dv (by omega) (by omega)
        have e : s.addChannelDataLeft dl dv l xs = (s1, .throws .assertion) := by
          unfold addChannelDataLeft
          rw [r.frames, r.channels, h1]
          simp only [Header.set_last_throws r1.labels _ l (by simp [hl])]
        rw [e, if_pos hl]
        refine ⟨?_, rfl⟩
        simp only [Nat.add_sub_cancel_left, List.replicate_one] at r1
        have hrows : (m.rows.map (· ++ [dv]) ++ List.replicate (max m.rows.length xs.length - m.rows.length)
            (List.replicate (m.labels.length + 1) dv)) =
            (List.range (max m.rows.length xs.length)).map fun i =>
              m.rows.getD i (List.replicate m.labels.length dv) ++ [([] : List α).getD i dv] := by
          apply List.ext_getElem (by simp)
          intro i h1 h2
          simp only [List.getElem_append, List.length_map, List.getElem_map, List.getElem_range, List.getD_eq_getElem?_getD,
            List.getElem?_nil, Option.getD_none]
          split
          · next h => rw [List.getElem?_eq_getElem h]; rfl
          · next h =>
            rw [List.getElem?_eq_none (by omega), List.getElem_replicate, List.replicate_succ']
            rfl
        rw [hrows] at r1
        exact r1
      · obtain ⟨s', h1, h2⟩ := rep_addChannelData r dv l xs hl
        rw [addChannelDataLeft_of_ok h1, if_neg hl]; exact ⟨h2, rfl⟩
    | addFrame v => exact ⟨rep_addFrame r v, rfl⟩
    | addFrameData xs =>
      simp only [call, Matrix.call]
      by_cases hx : xs.length = m.cols
      · obtain ⟨s', h1, h2⟩ := rep_addFrameData r dv xs hx
        rw [h1, if_pos hx]; exact ⟨h2, rfl⟩
      · have : s.addFrameData dv xs = .throws .assertion := by
          unfold addFrameData
          rw [if_neg (by rw [r.channels]; exact hx)]
        rw [this, if_neg hx]; exact ⟨r, rfl⟩
    | resize nf nc v =>
      simp only [call, Matrix.call]
      by_cases h : nf < m.rows.length ∨ nc < m.cols
      · have : s.resize dl nf nc v = .throws .flutError := by
          unfold Storage.resize
          rw [if_pos (by rw [r.frames, r.channels]; exact h)]
        rw [this, if_pos h]; exact ⟨r, rfl⟩
      · have h' : m.rows.length ≤ nf ∧ m.labels.length ≤ nc := by
          have : ¬ (nf < m.rows.length ∨ nc < m.labels.length) := h
          omega
        obtain ⟨s', h1, h2⟩ := rep_resize r nf nc v h'.1 h'.2
        rw [h1, if_neg h]; exact ⟨h2, rfl⟩
    | put f c x =>
      simp only [call, Matrix.call]
      by_cases h : f < m.rows.length ∧ c < m.cols
      · obtain ⟨s', h1, h2⟩ := rep_put r f c x h.1 h.2
        have : s.putAt f c x = .ok s' := by
          unfold putAt
          rw [if_pos (by rw [r.frames, r.channels]; exact h), h1]
        rw [this, if_pos h]; exact ⟨h2, rfl⟩
      · have : s.putAt f c x = .throws .assertion := by
          unfold putAt
          rw [if_neg (by rw [r.frames, r.channels]; exact h)]
        rw [this, if_neg h]; exact ⟨r, rfl⟩
    | clear => exact ⟨⟨rfl, Header.rep_clear dl, rfl, by simp [Matrix.call]⟩, rfl⟩

theorem rep_calls {dl : L} (dv : α) (cs : List (Call α L)) {s : Storage α L} {m : Matrix α L} (r : Rep dl s m) :
    ∃ s', calls dl dv cs s = .ok (s', (m.calls dv cs).2) ∧ Rep dl s' (m.calls dv cs).1 := by
  induction cs generalizing s m with
  | nil => exact ⟨s, rfl, r⟩
  | cons c cs ih =>
    obtain ⟨r1, h1⟩ := rep_call dv r c
    obtain ⟨s', h2, r2⟩ := ih r1
    refine ⟨s', ?_, r2⟩
    simp only [calls, Matrix.calls]
    cases he : call dl dv c s with
    | mk s1 o =>
      rw [he] at h1 h2
      simp only at h1 h2
      rw [h1]
      cases hm : (m.call dv c).2 with
      | none => simp only [outcomeOf, h2, Res.bind_ok]
      | some e => simp only [outcomeOf, h2, Res.bind_ok]

/-- A matrix that extends another keeps what it shows. -/
theorem keeps_of_rep {dl : L} {s s' : Storage α L} {m m' : Matrix α L} (r : Rep dl s m) (r' : Rep dl s' m')
    (hl : ∃ e, m'.labels = m.labels ++ e ∧ e.length ≤ 1)
    (hf : m.rows.length ≤ m'.rows.length)
    (hcell : ∀ f (h : f < m.rows.length), ∃ e, m'.rows[f]? = some (m.rows[f] ++ e)) : StorageKeeps s s' := by
  obtain ⟨e, hl, he⟩ := hl
  have sh := r.shows
  have sh' := r'.shows
  have hlen : m'.labels.length = m.labels.length + e.length := by rw [hl, List.length_append]
  refine ⟨by rw [sh.frames, sh'.frames]; exact hf, by rw [sh.channels, sh'.channels]; omega, ?_, ?_, ?_⟩
  · intro f c x hx
    by_cases h : f < m.rows.length ∧ c < m.labels.length
    · obtain ⟨y, hy, h1, _⟩ := sh.cell f c h.1 h.2
      rw [h1] at hx
      obtain ⟨y', hy', h1', _⟩ := sh'.cell f c (by omega) (by omega)
      obtain ⟨e', he'⟩ := hcell f h.1
      have hw := r.wf _ (List.getElem_mem h.1)
      rw [he', Option.bind_some, List.getElem?_append_left (by omega)] at hy'
      rw [List.getElem?_eq_getElem h.1, Option.bind_some, hy'] at hy
      rw [h1', ← hx]
      simpa using hy
    · rw [sh.outside f c h] at hx
      exact absurd hx (by simp)
  · intro l i hi
    rw [sh.labels.find] at hi
    rw [sh'.labels.find, hl, List.findIdx?_append]
    injection hi with hi
    rw [hi]
    rfl
  · intro i hi
    rw [sh.channels] at hi
    rw [sh.labels.get i hi, sh'.labels.get i (by omega)]
    congr 2
    simp only [hl]
    rw [List.getElem_append_left hi]

/-- One matrix extends another by at most one column. -/
def Ext (m m' : Matrix α L) : Prop :=
  (∃ e, m'.labels = m.labels ++ e ∧ e.length ≤ 1) ∧ m.rows.length ≤ m'.rows.length ∧
    ∀ f (h : f < m.rows.length), ∃ e, m'.rows[f]? = some (m.rows[f] ++ e)

theorem Ext.refl (m : Matrix α L) : Ext m m :=
  ⟨⟨[], by simp, by simp⟩, Nat.le_refl _, fun f h => ⟨[], by rw [List.getElem?_eq_getElem h]; simp⟩⟩

theorem Ext.widen (m : Matrix α L) (l : Option L) (v : α) : Ext m (m.widen l v) :=
  ⟨⟨[l], rfl, by simp⟩, by simp [Matrix.widen], fun f h => ⟨[v], by simp [Matrix.widen, List.getElem?_eq_getElem h]⟩⟩

theorem Ext.widenWith (m : Matrix α L) (l : Option L) (dv : α) (n : Nat) (xs : List α) :
    Ext m (m.widenWith l dv n xs) := by
  refine ⟨⟨[l], rfl, by simp⟩, by simp [Matrix.widenWith], fun f h => ⟨[xs.getD f dv], ?_⟩⟩
  have hlt : f < max m.rows.length n := by omega
  simp only [Matrix.widenWith, List.getElem?_map]
  rw [List.getElem?_range hlt]
  simp [List.getD_eq_getElem?_getD, List.getElem?_eq_getElem h]

theorem putLast_throws {m : Matrix α L} {k : Nat} {x : α} {e : Exn} (h : (m.putLast k x).2 = some e) :
    (m.putLast k x).1 = m := by
  unfold Matrix.putLast at h ⊢
  split
  · rfl
  · next hr => rw [if_neg hr] at h; cases h

theorem call_ext (dv : α) (m : Matrix α L) (c : Call α L) (e : Exn) (h : (m.call dv c).2 = some e) :
    Ext m (m.call dv c).1 := by
  cases c with
  | putLabel l x =>
    simp only [Matrix.call] at h ⊢
    cases hk : m.labels.findIdx? (· = some l) with
    | some k =>
      rw [hk] at h
      simp only at h ⊢
      rw [putLast_throws h]
      exact .refl m
    | none =>
      rw [hk] at h
      simp only at h ⊢
      rw [putLast_throws h]
      exact .widen m _ _
  | op op =>
    cases op with
    | addChannel l v =>
      simp only [Matrix.call] at h ⊢
      split
      · exact .widen m _ _
      · next hn => rw [if_neg hn] at h; cases h
    | addChannelData l xs =>
      simp only [Matrix.call] at h ⊢
      split
      · exact .widenWith m _ _ _ _
      · next hn => rw [if_neg hn] at h; cases h
    | addFrame v => cases h
    | addFrameData xs =>
      simp only [Matrix.call] at h ⊢
      split
      · next hn => rw [if_pos hn] at h; cases h
      · exact .refl m
    | resize nf nc v =>
      simp only [Matrix.call] at h ⊢
      split
      · exact .refl m
      · next hn => rw [if_neg hn] at h; cases h
    | put f c x =>
      simp only [Matrix.call] at h ⊢
      split
      · next hn => rw [if_pos hn] at h; cases h
      · exact .refl m
    | clear => cases h

end Storage

namespace Table

variable {α L : Type} [DecidableEq L]

theorem header_resize_same (dl : L) (h : Header L) : h.resize dl h.size = .ok h := by
  unfold Header.resize vresize Header.size
  simp

theorem resize_rows {dl : L} {dv : α} {n : Nat} {t t' : Table α L} (h : t.resize dl dv t.rows.size n = .ok t') :
    t'.rows = t.rows := by
  unfold Table.resize at h
  split at h
  · cases h
  · obtain ⟨d, _, h⟩ := Res.bind_eq_ok.1 h
    obtain ⟨cl, _, h⟩ := Res.bind_eq_ok.1 h
    rw [header_resize_same] at h
    cases h
    rfl

theorem addColumnLeft_rows (dl : L) (dv : α) (l : L) (v : α) (t : Table α L) :
    (t.addColumnLeft dl dv l v).1.rows = t.rows := by
  unfold addColumnLeft
  split
  · next t1 h1 =>
    have := resize_rows h1
    split <;> exact this
  all_goals rfl

theorem keeps_of_rep {dl : L} {t t' : Table α L} {m m' : LMatrix α L} (r : Rep dl t m) (r' : Rep dl t' m')
    (hrows : t'.rows = t.rows) (hl : ∃ e, m'.colLabels = m.colLabels ++ e ∧ e.length ≤ 1)
    (hcell : ∀ f (h : f < m.rows.length), ∃ e, m'.rows[f]? = some (m.rows[f] ++ e)) : TableKeeps t t' := by
  obtain ⟨e, hl, he⟩ := hl
  have sh := r.shows
  have sh' := r'.shows
  have hlen : m'.colLabels.length = m.colLabels.length + e.length := by rw [hl, List.length_append]
  refine ⟨hrows, by rw [sh.colLabels.size, sh'.colLabels.size]; omega, ?_, ?_, ?_⟩
  · intro f c x hx
    by_cases h : f < m.rows.length ∧ c < m.colLabels.length
    · obtain ⟨y, hy, h1⟩ := sh.cell f c h.1 h.2
      rw [h1] at hx
      obtain ⟨e', he'⟩ := hcell f h.1
      have hf' : f < m'.rows.length := by
        rcases Nat.lt_or_ge f m'.rows.length with h | h
        · exact h
        · rw [List.getElem?_eq_none h] at he'; cases he'
      obtain ⟨y', hy', h1'⟩ := sh'.cell f c hf' (by omega)
      have hw := r.wf _ (List.getElem_mem h.1)
      rw [he', Option.bind_some, List.getElem?_append_left (by omega)] at hy'
      rw [List.getElem?_eq_getElem h.1, Option.bind_some, hy'] at hy
      rw [h1', ← hx]
      simpa using hy
    · rw [sh.outside f c h] at hx
      exact absurd hx (by simp)
  · intro l i hi
    rw [sh.colLabels.find] at hi
    rw [sh'.colLabels.find, hl, List.findIdx?_append]
    injection hi with hi
    rw [hi]
    rfl
  · intro i hi
    rw [sh.colLabels.size] at hi
    rw [sh.colLabels.get i hi, sh'.colLabels.get i (by omega)]
    congr 2
    simp only [hl]
    rw [List.getElem_append_left hi]

end Table

namespace Table

variable {α L : Type} [DecidableEq L]

theorem rep_call {dl : L} {t : Table α L} {m : LMatrix α L} (dv : α) (r : Rep dl t m) (c : Op α L) :
    Rep dl (call dl dv c t).1 (m.call dv c).1 ∧ (call dl dv c t).2 = outcomeOf (m.call dv c).2 := by
  cases c with
  | addRow l v =>
    simp only [call, LMatrix.call]
    by_cases hl : some l ∈ m.rowLabels
    · have : t.addRow l v = .throws .assertion := by
        unfold addRow
        rw [Header.add_throws r.rowLabels l hl]; rfl
      rw [this, if_pos hl]; exact ⟨r, rfl⟩
    · obtain ⟨t', h1, h2⟩ := rep_addRow r l v hl
      rw [h1, if_neg hl]; exact ⟨h2, rfl⟩
  | addColumn l v =>
    simp only [call, LMatrix.call]
    obtain ⟨t1, h1, r1⟩ := rep_resize_cols dv r (m.colLabels.length + 1) (by omega)
    simp only [Nat.add_sub_cancel_left, List.replicate_one] at r1
    by_cases hl : some l ∈ m.colLabels
    · have e : t.addColumnLeft dl dv l v = (t1, .throws .assertion) := by
        unfold addColumnLeft
        rw [r.rowLabels.size, r.colLabels.size, h1]
        simp only [Header.set_last_throws r1.colLabels _ l (by simp [hl])]
      rw [e, if_pos hl]; exact ⟨r1, rfl⟩
    · obtain ⟨h', e2, r2⟩ := Header.rep_set_last r1.colLabels l hl
      have hc1 : t1.cols.size - 1 = m.colLabels.length := by rw [r1.colLabels.size]; simp
      have e : t.addColumnLeft dl dv l v = ({ t1 with cols := h' }, .ok ()) := by
        unfold addColumnLeft
        rw [r.rowLabels.size, r.colLabels.size, h1]
        simp only [hc1, e2]
      rw [e, if_neg hl]
      refine ⟨⟨r1.rowLabels, r2, r1.data, r1.rows, ?_⟩, rfl⟩
      intro x hx
      have := r1.wf x hx
      simpa using this
  | put f c x =>
    simp only [call, LMatrix.call]
    by_cases h : f < m.rows.length ∧ c < m.colLabels.length
    · obtain ⟨t', h1, h2⟩ := rep_put r f c x h.1 h.2
      rw [h1, if_pos h]; exact ⟨h2, rfl⟩
    · rw [put_throws r f c x h, if_neg h]; exact ⟨r, rfl⟩

theorem rep_calls {dl : L} (dv : α) (cs : List (Op α L)) {t : Table α L} {m : LMatrix α L} (r : Rep dl t m) :
    ∃ t', calls dl dv cs t = .ok (t', (m.calls dv cs).2) ∧ Rep dl t' (m.calls dv cs).1 := by
  induction cs generalizing t m with
  | nil => exact ⟨t, rfl, r⟩
  | cons c cs ih =>
    obtain ⟨r1, h1⟩ := rep_call dv r c
    obtain ⟨t', h2, r2⟩ := ih r1
    refine ⟨t', ?_, r2⟩
    simp only [calls, LMatrix.calls]
    cases he : call dl dv c t with
    | mk t1 o =>
      rw [he] at h1 h2
      simp only at h1 h2
      rw [h1]
      cases hm : (m.call dv c).2 with
      | none => simp only [outcomeOf, h2, Res.bind_ok]
      | some e => simp only [outcomeOf, h2, Res.bind_ok]

end Table

end Flut
