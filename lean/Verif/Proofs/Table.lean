import Verif.Proofs.Storage

/-! Lemmas about `table`, `circular_frame_buffer` and `debug_storage`. -/

namespace Flut

namespace Table

variable {α L : Type} [DecidableEq L]

/-- The table holds the matrix. -/
structure Rep (dl : L) (t : Table α L) (m : LMatrix α L) : Prop where
  rowLabels : Header.Rep dl t.rows m.rowLabels
  colLabels : Header.Rep dl t.cols m.colLabels
  data : t.data = m.rows.flatten
  rows : m.rows.length = m.rowLabels.length
  wf : ∀ r ∈ m.rows, r.length = m.colLabels.length

theorem Rep.dataLength {dl : L} {t : Table α L} {m : LMatrix α L} (r : Rep dl t m) :
    t.data.length = m.rows.length * m.colLabels.length := by
  rw [r.data, flatten_length _ _ r.wf]

theorem Rep.shows {dl : L} {t : Table α L} {m : LMatrix α L} (r : Rep dl t m) : TableShows dl t m := by
  refine ⟨r.rowLabels.shows, r.colLabels.shows, r.rows, ?_, ?_⟩
  · intro f c hf hc
    have hlen : c < (m.rows[f]).length := by rw [r.wf _ (List.getElem_mem _)]; exact hc
    refine ⟨m.rows[f][c], by simp [hf, hlen], ?_⟩
    unfold Table.get
    rw [if_pos ⟨by rw [r.rowLabels.size, ← r.rows]; exact hf, by rw [r.colLabels.size]; exact hc⟩]
    apply vget_eq
    rw [r.data, r.colLabels.size, flatten_get _ _ r.wf f c hc]
    simp [hf, hlen]
  · intro f c h
    unfold Table.get
    rw [if_neg (by rw [r.rowLabels.size, ← r.rows, r.colLabels.size]; exact h)]

theorem rep_new (dl : L) (dv : α) (rows cols : Nat) :
    Rep dl (Table.new dl dv rows cols) (LMatrix.init rows cols dv) := by
  refine ⟨Header.rep_new dl rows, Header.rep_new dl cols, ?_, ?_, ?_⟩
  · simp [Table.new, LMatrix.init]
  · simp [LMatrix.init]
  · intro r hr
    simp only [LMatrix.init] at hr ⊢
    rw [List.mem_replicate] at hr
    rw [hr.2]; simp

theorem moveCells_spec (dv : α) (orows ocols cols : Nat) (hle : ocols ≤ cols) (n : Nat) (d : List α)
    (hn : n ≤ orows * cols) (hd : d.length = orows * cols) :
    ∃ d', moveCells dv orows ocols cols n d = .ok d' ∧ d'.length = d.length ∧
      ∀ j, d'[j]? = if j < n then
          (if j % cols < ocols then d[ocols * (j / cols) + j % cols]? else some dv)
        else d[j]? := by
  induction n generalizing d with
  | zero => exact ⟨d, rfl, rfl, fun j => by simp⟩
  | succ n ih =>
    have hcpos : 0 < cols := by
      rcases Nat.eq_zero_or_pos cols with h | h
      · rw [h] at hn; simp at hn
      · exact h
    have hri : n / cols < orows := (Nat.div_lt_iff_lt_mul hcpos).2 (by omega)
    have hdm : cols * (n / cols) + n % cols = n := Nat.div_add_mod n cols
    have hsrc : ∀ j, ocols * (j / cols) + j % cols ≤ j := by
      intro j
      have h1 : ocols * (j / cols) ≤ cols * (j / cols) := Nat.mul_le_mul_right _ hle
      have h2 := Nat.div_add_mod j cols
      omega
    have hx : ∃ x, (if n / cols < orows ∧ n % cols < ocols then vget d (ocols * (n / cols) + n % cols) else .ok dv)
          = .ok x ∧
        (if n % cols < ocols then d[ocols * (n / cols) + n % cols]? else some dv) = some x := by
      by_cases hc : n % cols < ocols
      · have hlt : ocols * (n / cols) + n % cols < d.length := by have := hsrc n; omega
        refine ⟨d[ocols * (n / cols) + n % cols], ?_, ?_⟩
        · rw [if_pos ⟨hri, hc⟩]; exact vget_eq (List.getElem?_eq_getElem hlt)
        · rw [if_pos hc]; exact List.getElem?_eq_getElem hlt
      · exact ⟨dv, by rw [if_neg (fun h => hc h.2)], by rw [if_neg hc]⟩
    obtain ⟨x, hx1, hx2⟩ := hx
    obtain ⟨d', h1, h2, h3⟩ := ih (d.set n x) (by omega) (by simpa using hd)
    refine ⟨d', ?_, by simpa using h2, ?_⟩
    · simp only [moveCells]
      rw [hdm]
      have hset : vset d n x = .ok (d.set n x) := if_pos (by omega)
      have : ∀ (e : Res α) (k : α → Res (List α)), e = .ok x → (e >>= k) = k x := by
        rintro e k rfl; rfl
      by_cases hc : n / cols < orows ∧ n % cols < ocols
      · rw [if_pos hc] at hx1
        simp only [if_pos hc, hx1, Res.bind_ok, hset]
        exact h1
      · rw [if_neg hc] at hx1
        injection hx1 with hx1
        subst hx1
        simp only [if_neg hc, Res.bind_ok, hset]
        exact h1
    · intro j
      rw [h3 j]
      by_cases hj : j < n
      · rw [if_pos hj, if_pos (show j < n + 1 by omega)]
        by_cases hc : j % cols < ocols
        · rw [if_pos hc, if_pos hc, List.getElem?_set_ne (by have := hsrc j; omega)]
        · rw [if_neg hc, if_neg hc]
      · rw [if_neg hj]
        by_cases hjn : j = n
        · subst hjn
          rw [if_pos (by omega), hx2, List.getElem?_set_self (by omega)]
        · rw [if_neg (by omega), List.getElem?_set_ne (by omega)]

theorem moveCells_rows (dv : α) (ocols cols : Nat) (hle : ocols ≤ cols) (rows : List (List α))
    (h : ∀ r ∈ rows, r.length = ocols) :
    moveCells dv rows.length ocols cols (rows.length * cols) (vresize rows.flatten (rows.length * cols) dv)
      = .ok (rows.map (· ++ List.replicate (cols - ocols) dv)).flatten := by
  have hfl := flatten_length rows ocols h
  have hle2 : rows.length * ocols ≤ rows.length * cols := Nat.mul_le_mul_left _ hle
  have hwf : ∀ r ∈ rows.map (· ++ List.replicate (cols - ocols) dv), r.length = cols := by
    have := Storage.wf_grow rows ocols cols 0 dv hle h
    simpa using this
  have hlen := flatten_length _ _ hwf
  simp only [List.length_map] at hlen
  have hd0 : (vresize rows.flatten (rows.length * cols) dv).length = rows.length * cols := by
    rw [vresize_grow _ _ _ (by omega)]
    simp only [List.length_append, List.length_replicate]
    omega
  obtain ⟨d', h1, h2, h3⟩ := moveCells_spec dv rows.length ocols cols hle (rows.length * cols) _ (Nat.le_refl _) hd0
  rw [h1]
  congr 1
  apply List.ext_getElem?
  intro j
  rw [h3 j]
  by_cases hj : j < rows.length * cols
  · have hcpos : 0 < cols := by
      rcases Nat.eq_zero_or_pos cols with h | h
      · rw [h] at hj; simp at hj
      · exact h
    have hri : j / cols < rows.length := (Nat.div_lt_iff_lt_mul hcpos).2 hj
    have hci : j % cols < cols := Nat.mod_lt _ hcpos
    have hdm : j / cols * cols + j % cols = j := Nat.div_add_mod' j cols
    have hrow : (rows[j / cols]).length = ocols := h _ (List.getElem_mem _)
    rw [if_pos hj]
    conv => rhs; rw [← hdm]
    rw [flatten_get _ _ hwf _ _ hci, List.getElem?_map, List.getElem?_eq_getElem hri]
    simp only [Option.map_some, Option.bind_some]
    by_cases hc : j % cols < ocols
    · rw [if_pos hc, vresize_grow _ _ _ (by omega), List.getElem?_append_left, Nat.mul_comm ocols,
        flatten_get _ _ h _ _ hc, List.getElem?_eq_getElem hri, Option.bind_some,
        List.getElem?_append_left (by omega)]
      rw [hfl, Nat.mul_comm ocols]
      exact flat_bound _ _ _ _ hri hc
    · rw [if_neg hc, List.getElem?_append_right (by omega), List.getElem?_replicate, if_pos (by omega)]
  · rw [if_neg hj, List.getElem?_eq_none (by omega), List.getElem?_eq_none (by omega)]

/-- Adding columns keeps all cells and fills the new ones with `T()`. -/
theorem rep_resize_cols {dl : L} {t : Table α L} {m : LMatrix α L} (dv : α) (r : Rep dl t m) (cols : Nat)
    (hc : m.colLabels.length ≤ cols) :
    ∃ t', t.resize dl dv m.rowLabels.length cols = .ok t' ∧
      Rep dl t' ⟨m.rowLabels, m.colLabels ++ List.replicate (cols - m.colLabels.length) none,
        m.rows.map (· ++ List.replicate (cols - m.colLabels.length) dv)⟩ := by
  obtain ⟨cl, h1, r1⟩ := Header.rep_resize r.colLabels cols hc
  obtain ⟨rl, h2, r2⟩ := Header.rep_resize r.rowLabels m.rowLabels.length (Nat.le_refl _)
  simp only [Nat.sub_self, List.replicate_zero, List.append_nil] at r2
  refine ⟨⟨rl, cl, (m.rows.map (· ++ List.replicate (cols - m.colLabels.length) dv)).flatten⟩, ?_, ?_⟩
  · unfold Table.resize
    rw [r.rowLabels.size, r.colLabels.size, if_neg (by omega), r.data, ← r.rows,
      moveCells_rows dv _ _ hc m.rows r.wf]
    simp only [Res.bind_ok, h1, r.rows, h2]
  · refine ⟨r2, r1, rfl, by simp [r.rows], ?_⟩
    have := Storage.wf_grow m.rows m.colLabels.length cols 0 dv hc r.wf
    simpa [show m.colLabels.length + (cols - m.colLabels.length) = cols by omega] using this

theorem rep_addRow {dl : L} {t : Table α L} {m : LMatrix α L} (r : Rep dl t m) (l : L) (v : α)
    (hl : some l ∉ m.rowLabels) :
    ∃ t', t.addRow l v = .ok (m.rowLabels.length, t') ∧
      Rep dl t' ⟨m.rowLabels ++ [some l], m.colLabels, m.rows ++ [List.replicate m.colLabels.length v]⟩ := by
  obtain ⟨rl, h1, r1⟩ := Header.rep_add r.rowLabels l hl
  have hs : rl.size = m.rowLabels.length + 1 := by rw [r1.size]; simp
  refine ⟨⟨rl, t.cols, vresize t.data (rl.size * t.cols.size) v⟩, ?_, ?_⟩
  · unfold addRow
    rw [h1]
    simp [hs]
  · refine ⟨r1, r.colLabels, ?_, by simp [r.rows], ?_⟩
    · simp only
      rw [hs, r.colLabels.size, vresize_grow _ _ _ (by rw [r.dataLength, r.rows, Nat.add_mul]; omega), r.dataLength,
        r.data, r.rows, Nat.add_mul, Nat.add_sub_cancel_left]
      simp
    · intro x hx
      rcases List.mem_append.1 hx with hx | hx
      · exact r.wf x hx
      · simp only [List.mem_singleton] at hx; rw [hx]; simp

theorem rep_addColumn {dl : L} {t : Table α L} {m : LMatrix α L} (dv : α) (r : Rep dl t m) (l : L) (v : α)
    (hl : some l ∉ m.colLabels) :
    ∃ t', t.addColumn dl dv l v = .ok (m.colLabels.length, t') ∧
      Rep dl t' ⟨m.rowLabels, m.colLabels ++ [some l], m.rows.map (· ++ [dv])⟩ := by
  obtain ⟨t1, h1, r1⟩ := rep_resize_cols dv r (m.colLabels.length + 1) (by omega)
  simp only [Nat.add_sub_cancel_left, List.replicate_one] at r1
  obtain ⟨h', e2, r2⟩ := Header.rep_set_last r1.colLabels l hl
  have hc1 : t1.cols.size - 1 = m.colLabels.length := by rw [r1.colLabels.size]; simp
  refine ⟨{ t1 with cols := h' }, ?_, ?_⟩
  · unfold addColumn
    rw [r.rowLabels.size, r.colLabels.size, h1]
    simp only [Res.bind_ok, hc1, e2]
  · refine ⟨r1.rowLabels, r2, r1.data, r1.rows, ?_⟩
    intro x hx
    have := r1.wf x hx
    simpa using this

theorem addColumn_throws {dl : L} {t : Table α L} {m : LMatrix α L} (dv : α) (r : Rep dl t m) (l : L) (v : α)
    (hl : some l ∈ m.colLabels) : t.addColumn dl dv l v = .throws .assertion := by
  obtain ⟨t1, h1, r1⟩ := rep_resize_cols dv r (m.colLabels.length + 1) (by omega)
  unfold addColumn
  rw [r.rowLabels.size, r.colLabels.size, h1]
  simp only [Res.bind_ok]
  rw [Header.set_last_throws r1.colLabels _ l (by simp [hl])]
  rfl

theorem rep_put {dl : L} {t : Table α L} {m : LMatrix α L} (r : Rep dl t m) (f c : Nat) (x : α)
    (hf : f < m.rows.length) (hc : c < m.colLabels.length) :
    ∃ t', t.put f c x = .ok t' ∧ Rep dl t' ⟨m.rowLabels, m.colLabels, m.rows.modify f (·.set c x)⟩ := by
  have hb : f * t.cols.size + c < t.data.length := by
    rw [r.dataLength, r.colLabels.size]; exact flat_bound f c _ _ hf hc
  refine ⟨{ t with data := t.data.set (f * t.cols.size + c) x }, ?_, ?_⟩
  · unfold put vset
    rw [if_pos ⟨by rw [r.rowLabels.size, ← r.rows]; exact hf, by rw [r.colLabels.size]; exact hc⟩, if_pos hb]
    rfl
  · refine ⟨r.rowLabels, r.colLabels, ?_, by simp [r.rows], modify_lengths _ _ r.wf f c x⟩
    simp only
    rw [r.data, r.colLabels.size, flatten_set _ _ r.wf f c hc]

theorem put_throws {dl : L} {t : Table α L} {m : LMatrix α L} (r : Rep dl t m) (f c : Nat) (x : α)
    (h : ¬ (f < m.rows.length ∧ c < m.colLabels.length)) : t.put f c x = .throws .assertion := by
  unfold put
  rw [if_neg (by rw [r.rowLabels.size, ← r.rows, r.colLabels.size]; exact h)]

theorem rep_run {dl : L} {t : Table α L} {m : LMatrix α L} (dv : α) (r : Rep dl t m) (op : Op α L)
    (hop : ∀ l v, op = .addColumn l v → v = dv) :
    Agree (Rep dl) (t.run dl dv op) (m.step op) := by
  cases op with
  | addRow l v =>
    simp only [run, LMatrix.step]
    by_cases hl : some l ∈ m.rowLabels
    · unfold addRow
      rw [Header.add_throws r.rowLabels l hl, if_pos hl]; rfl
    · obtain ⟨t', h1, h2⟩ := rep_addRow r l v hl
      rw [h1, if_neg hl]; exact h2
  | addColumn l v =>
    have hv := hop l v rfl
    subst hv
    simp only [run, LMatrix.step]
    by_cases hl : some l ∈ m.colLabels
    · rw [addColumn_throws v r l v hl, if_pos hl]; rfl
    · obtain ⟨t', h1, h2⟩ := rep_addColumn v r l v hl
      rw [h1, if_neg hl]; exact h2
  | put f c x =>
    simp only [run, LMatrix.step]
    by_cases h : f < m.rows.length ∧ c < m.colLabels.length
    · obtain ⟨t', h1, h2⟩ := rep_put r f c x h.1 h.2
      rw [h1, if_pos h]; exact h2
    · rw [put_throws r f c x h, if_neg h]; rfl

theorem rep_runAll {dl : L} (dv : α) (ops : List (Op α L)) {t : Table α L} {m : LMatrix α L} (r : Rep dl t m)
    (hop : ∀ l v, .addColumn l v ∈ ops → v = dv) :
    Agree (Rep dl) (t.runAll dl dv ops) (m.run ops) := by
  induction ops generalizing t m with
  | nil => exact r
  | cons op ops ih =>
    exact Agree.bind (rep_run dv r op (fun l v h => hop l v (by simp [h])))
      (fun a b hab => ih hab (fun l v h => hop l v (by simp [h])))

end Table

/-! ### Frame buffers -/

namespace FrameBuf

variable {α L : Type} [DecidableEq L]

theorem written_append (f c : Nat) (a b : List (Op α)) :
    FrameSpec.written f c (a ++ b) = (FrameSpec.written f c b).or (FrameSpec.written f c a) := by
  induction a with
  | nil => simp [FrameSpec.written]
  | cons op a ih =>
    cases op with
    | addFrame => simp only [List.cons_append, FrameSpec.written, ih]
    | put f' c' x =>
      simp only [List.cons_append, FrameSpec.written, ih]
      cases FrameSpec.written f c b <;> simp

theorem frames_append (a b : List (Op α)) :
    FrameSpec.frames (a ++ b) = FrameSpec.frames a + FrameSpec.frames b := by
  induction a with
  | nil => simp [FrameSpec.frames]
  | cons op a ih => cases op <;> simp [FrameSpec.frames, ih] <;> omega

/-- What is known of a buffer after a history. -/
structure Rep (n ch : Nat) (ops : List (Op α)) (b : FrameBuf α L) : Prop where
  bufSize : b.bufSize = n
  channels : b.channels = ch
  frames : b.frames = FrameSpec.frames ops
  length : b.data.length = n * ch
  cell : ∀ f c v, FrameSpec.Retained n (FrameSpec.frames ops) f → c < ch →
    FrameSpec.written f c ops = some v → b.data[f % n * ch + c]? = some v
  unwritten : ∀ f c, FrameSpec.frames ops ≤ f → FrameSpec.written f c ops = none

theorem retained_mod_ne (n t f f' : Nat) (h : FrameSpec.Retained n t f) (h' : FrameSpec.Retained n t f')
    (hne : f ≠ f') : f % n ≠ f' % n := by
  intro he
  unfold FrameSpec.Retained at h h'
  have e1 := Nat.div_add_mod f n
  have e2 := Nat.div_add_mod f' n
  rcases Nat.lt_trichotomy (f / n) (f' / n) with hlt | heq | hgt
  · have : n * (f / n + 1) ≤ n * (f' / n) := Nat.mul_le_mul_left n hlt
    rw [Nat.mul_add] at this
    omega
  · rw [heq] at e1; omega
  · have : n * (f' / n + 1) ≤ n * (f / n) := Nat.mul_le_mul_left n hgt
    rw [Nat.mul_add] at this
    omega

theorem slot_inj (ch a c a' c' : Nat) (hc : c < ch) (hc' : c' < ch) (h : a * ch + c = a' * ch + c') :
    a = a' ∧ c = c' := by
  have h1 : (a * ch + c) / ch = (a' * ch + c') / ch := by rw [h]
  rw [Nat.mul_comm a, Nat.mul_comm a', Nat.mul_add_div (by omega), Nat.mul_add_div (by omega),
    Nat.div_eq_of_lt hc, Nat.div_eq_of_lt hc'] at h1
  have : a = a' := by omega
  subst this
  omega

theorem rep_new (dl : L) (dv : α) (ch n : Nat) : Rep n ch [] (FrameBuf.new dl dv ch n : FrameBuf α L) := by
  refine ⟨rfl, ?_, rfl, ?_, ?_, fun _ _ _ => rfl⟩
  · simp [FrameBuf.new, FrameBuf.channels, Header.new, Header.size]
  · simp [FrameBuf.new]
  · intro f c v _ _ h
    simp [FrameSpec.written] at h

theorem rep_run {n ch : Nat} {pre : List (Op α)} {b : FrameBuf α L} (r : Rep n ch pre b) (op : Op α)
    (hop : ∀ f c x, op = .put f c x → FrameSpec.Retained n (FrameSpec.frames pre) f ∧ c < ch) :
    ∃ b', b.run op = .ok b' ∧ Rep n ch (pre ++ [op]) b' := by
  cases op with
  | addFrame =>
    refine ⟨_, rfl, r.bufSize, r.channels, ?_, r.length, ?_, ?_⟩
    · rw [frames_append]; simp [addFrame, r.frames, FrameSpec.frames]
    · intro f c v hf hc hw
      rw [written_append] at hw
      simp only [FrameSpec.written, Option.none_or] at hw
      rw [frames_append] at hf
      unfold FrameSpec.Retained at hf
      simp only [FrameSpec.frames, Nat.zero_add] at hf
      by_cases hlt : f < FrameSpec.frames pre
      · exact r.cell f c v ⟨hlt, by omega⟩ hc hw
      · rw [r.unwritten f c (by omega)] at hw; cases hw
    · intro f c hf
      rw [frames_append] at hf
      rw [written_append]
      simp only [FrameSpec.written, Option.none_or]
      exact r.unwritten f c (by omega)
  | put f0 c0 x =>
    obtain ⟨hret, hc0⟩ := hop f0 c0 x rfl
    have hn : 0 < n := by unfold FrameSpec.Retained at hret; omega
    have hslot : f0 % n * ch + c0 < n * ch := flat_bound _ _ _ _ (Nat.mod_lt _ hn) hc0
    refine ⟨{ b with data := b.data.set (f0 % n * ch + c0) x }, ?_, r.bufSize, r.channels, ?_, ?_, ?_, ?_⟩
    · simp only [run, put, slot, CDeque.modC, r.bufSize, r.channels]
      rw [if_neg (by omega)]
      simp only [Res.bind_ok, vset]
      rw [if_pos (by rw [r.length]; exact hslot)]
      rfl
    · rw [frames_append]; simp [r.frames, FrameSpec.frames]
    · simp [r.length]
    · intro f c v hf hc hw
      rw [frames_append] at hf
      simp only [FrameSpec.frames, Nat.add_zero] at hf
      rw [written_append] at hw
      simp only
      by_cases hfc : f0 = f ∧ c0 = c
      · obtain ⟨rfl, rfl⟩ := hfc
        simp only [FrameSpec.written, and_self, if_true, Option.some_or, Option.some.injEq] at hw
        subst hw
        rw [List.getElem?_set_self (by rw [r.length]; exact hslot)]
      · simp only [FrameSpec.written, if_neg hfc, Option.none_or] at hw
        rw [List.getElem?_set_ne]
        · exact r.cell f c v hf hc hw
        · intro he
          obtain ⟨h1, h2⟩ := slot_inj ch _ _ _ _ hc0 hc he
          by_cases hff : f0 = f
          · exact hfc ⟨hff, h2⟩
          · exact retained_mod_ne n _ f0 f hret hf hff h1
    · intro f c hf
      rw [frames_append] at hf
      simp only [FrameSpec.frames, Nat.add_zero] at hf
      rw [written_append]
      unfold FrameSpec.Retained at hret
      have : ¬ (f0 = f ∧ c0 = c) := by omega
      simp only [FrameSpec.written, if_neg this, Option.none_or]
      exact r.unwritten f c hf

theorem rep_runAll {n ch : Nat} (ops : List (Op α)) {pre : List (Op α)} {b : FrameBuf α L} (r : Rep n ch pre b)
    (hl : FrameSpec.Legal n ch (pre ++ ops)) :
    ∃ b', b.runAll ops = .ok b' ∧ Rep n ch (pre ++ ops) b' := by
  induction ops generalizing pre b with
  | nil => exact ⟨b, rfl, by simpa using r⟩
  | cons op ops ih =>
    obtain ⟨b1, h1, r1⟩ := rep_run r op (by
      rintro f c x rfl
      exact hl pre f c x ops rfl)
    obtain ⟨b2, h2, r2⟩ := ih r1 (by simpa using hl)
    exact ⟨b2, by simp [runAll, h1, h2], by simpa using r2⟩

theorem Rep.get {n ch : Nat} {ops : List (Op α)} {b : FrameBuf α L} (r : Rep n ch ops b) (f c : Nat) (v : α)
    (hf : FrameSpec.Retained n (FrameSpec.frames ops) f) (hc : c < ch) (hw : FrameSpec.written f c ops = some v) :
    b.get f c = .ok v := by
  have hn : 0 < n := by unfold FrameSpec.Retained at hf; omega
  unfold FrameBuf.get slot CDeque.modC
  rw [r.bufSize, r.channels, if_neg (by omega)]
  simp only [Res.bind_ok]
  exact vget_eq (r.cell f c v hf hc hw)

end FrameBuf

/-! ### Debug storage -/

section debug
variable {α L : Type} [DecidableEq α] [DecidableEq L]

/-- The matrix after `write_debug`. -/
def debugStep (sentinel : α) (l : L) (v : α) (m : Matrix α L) : Matrix α L :=
  let m := if some l ∈ m.labels then m else ⟨m.labels ++ [some l], m.rows.map (· ++ [sentinel])⟩
  match m.labels.findIdx? (· = some l) with
  | none => m
  | some c =>
    match m.rows.getLast? with
    | none => ⟨m.labels, [(List.replicate m.labels.length sentinel).set c v]⟩
    | some row =>
      if row[c]? = some sentinel then ⟨m.labels, m.rows.dropLast ++ [row.set c v]⟩
      else ⟨m.labels, m.rows ++ [(List.replicate m.labels.length sentinel).set c v]⟩

theorem modify_last (rows : List (List α)) (row : List α) (f : List α → List α) :
    (rows ++ [row]).modify rows.length f = rows ++ [f row] := by
  induction rows with
  | nil => rfl
  | cons a rows ih => simp [ih]

theorem findIdx?_lt (ls : List (Option L)) (l : L) (c : Nat) (h : ls.findIdx? (· = some l) = some c) :
    c < ls.length := by
  rw [List.findIdx?_eq_some_iff_getElem] at h
  exact h.1

theorem findIdx?_snoc (ls : List (Option L)) (l : L) (h : some l ∉ ls) :
    (ls ++ [some l]).findIdx? (· = some l) = some ls.length := by
  rw [List.findIdx?_append, (Header.findIdx?_eq_none ls l).2 h]
  simp [List.findIdx?_cons]

theorem rep_debug_known {dl : L} {s : Storage α L} {m : Matrix α L} (r : Storage.Rep dl s m) (sentinel : α) (l : L)
    (v : α) (c : Nat) (hc : m.labels.findIdx? (· = some l) = some c) :
    ∃ s', (do
        let fresh ← if s.empty then .ok true else do
          let x ← s.last c
          .ok (decide (x ≠ sentinel))
        let s := if fresh then s.addFrame sentinel else s
        s.putLast c v : Res (Storage α L)) = .ok s' ∧
      Storage.Rep dl s' (match m.rows.getLast? with
        | none => ⟨m.labels, [(List.replicate m.labels.length sentinel).set c v]⟩
        | some row =>
          if row[c]? = some sentinel then ⟨m.labels, m.rows.dropLast ++ [row.set c v]⟩
          else ⟨m.labels, m.rows ++ [(List.replicate m.labels.length sentinel).set c v]⟩) := by
  have hlt := findIdx?_lt _ _ _ hc
  -- writing to the last frame of a storage with at least one
  have hput : ∀ {s : Storage α L} {rows : List (List α)} {row : List α},
      Storage.Rep dl s ⟨m.labels, rows ++ [row]⟩ →
      ∃ s', s.putLast c v = .ok s' ∧ Storage.Rep dl s' ⟨m.labels, rows ++ [row.set c v]⟩ := by
    intro s rows row r
    obtain ⟨s', h1, h2⟩ := Storage.rep_put r rows.length c v (by simp) hlt
    rw [modify_last] at h2
    refine ⟨s', ?_, h2⟩
    have hlen := r.dataLength
    have hfr := r.frames
    simp only [List.length_append, List.length_singleton] at hlen hfr
    have hne : s.data.isEmpty = false := by
      cases hd : s.data with
      | nil => rw [hd, Nat.add_mul] at hlen; simp at hlen; omega
      | cons a b => rfl
    unfold Storage.putLast
    rw [hne, hfr]
    simpa using h1
  by_cases he : m.rows = []
  · have hfr := r.frames
    have hd : s.data = [] := by rw [r.data, he]; rfl
    have hemp : s.empty = true := by simp [Storage.empty, hd]
    have r1 := Storage.rep_addFrame r sentinel
    rw [he] at r1 ⊢
    obtain ⟨s', h1, h2⟩ := hput r1
    refine ⟨s', ?_, by simpa using h2⟩
    simp [hemp, h1]
  · obtain ⟨rows, row, hrows⟩ : ∃ rows row, m.rows = rows ++ [row] :=
      ⟨_, _, (List.dropLast_concat_getLast he).symm⟩
    have r0 : Storage.Rep dl s ⟨m.labels, rows ++ [row]⟩ := by rw [← hrows]; exact r
    have hlen := r0.dataLength
    have hfr := r0.frames
    simp only [List.length_append, List.length_singleton] at hlen hfr
    have hne : s.data.isEmpty = false := by
      cases hd : s.data with
      | nil => rw [hd, Nat.add_mul] at hlen; simp at hlen; omega
      | cons a b => rfl
    have hrl : row.length = m.labels.length := r0.wf row (by simp)
    obtain ⟨x, hx1, hx2⟩ := r0.get rows.length c (by simp) hlt
    simp at hx1
    have hlast : s.last c = .ok x := by
      unfold Storage.last
      rw [hne, hfr]
      simpa using hx2
    have hemp : s.empty = false := hne
    rw [hrows]
    simp only [List.getLast?_append, List.getLast?_singleton, Option.some_or, List.dropLast_concat]
    by_cases hs : x = sentinel
    · rw [if_pos (show row[c]? = some sentinel by rw [hx1, hs])]
      obtain ⟨s', h1, h2⟩ := hput r0
      exact ⟨s', by simp [hemp, hlast, hs, h1], h2⟩
    · rw [if_neg (show ¬ row[c]? = some sentinel by rw [hx1]; simpa using hs)]
      have r1 := Storage.rep_addFrame r0 sentinel
      obtain ⟨s', h1, h2⟩ := hput r1
      exact ⟨s', by simp [hemp, hlast, hs, h1], h2⟩

theorem rep_debugWrite {dl : L} {s : Storage α L} {m : Matrix α L} (r : Storage.Rep dl s m) (sentinel : α) (l : L)
    (v : α) : ∃ s', debugWrite dl sentinel l v s = .ok s' ∧ Storage.Rep dl s' (debugStep sentinel l v m) := by
  by_cases hl : some l ∈ m.labels
  · obtain ⟨c, hc⟩ : ∃ c, m.labels.findIdx? (· = some l) = some c := by
      cases hf : m.labels.findIdx? (· = some l) with
      | none => exact absurd hl ((Header.findIdx?_eq_none _ _).1 hf)
      | some c => exact ⟨c, rfl⟩
    obtain ⟨s', h1, h2⟩ := rep_debug_known r sentinel l v c hc
    refine ⟨s', ?_, ?_⟩
    · unfold debugWrite
      rw [(Storage.rep_findOrAdd r l sentinel).1 c hc]
      exact h1
    · unfold debugStep
      simp only [if_pos hl, hc]
      exact h2
  · obtain ⟨s1, e1, r1⟩ := (Storage.rep_findOrAdd r l sentinel).2 hl
    have hc := findIdx?_snoc m.labels l hl
    obtain ⟨s', h1, h2⟩ := rep_debug_known r1 sentinel l v _ hc
    refine ⟨s', ?_, ?_⟩
    · unfold debugWrite
      rw [e1]
      exact h1
    · unfold debugStep
      simp only [if_neg hl, hc]
      exact h2

omit [DecidableEq α] in
theorem findIdx?_label (ls : List (Option L)) (l : L) (c : Nat) (h : ls.findIdx? (· = some l) = some c) :
    ls[c]? = some (some l) := by
  have h2 := h
  rw [List.findIdx?_eq_some_iff_getElem] at h2
  obtain ⟨hlt, h3, _⟩ := h2
  rw [List.getElem?_eq_getElem hlt]
  simpa using h3

theorem column_widen (sentinel : α) (l : L) (m : Matrix α L) (wf : ∀ r ∈ m.rows, r.length = m.labels.length)
    (hl : some l ∉ m.labels) (l' : L) :
    (column (⟨m.labels ++ [some l], m.rows.map (· ++ [sentinel])⟩ : Matrix α L) l').filter (· ≠ sentinel)
      = (column m l').filter (· ≠ sentinel) := by
  unfold column
  simp only
  by_cases hll : l' = l
  · subst hll
    rw [findIdx?_snoc m.labels l' hl, (Header.findIdx?_eq_none m.labels l').2 hl]
    simp only [List.filter_nil, List.filter_eq_nil_iff]
    intro x hx
    obtain ⟨row, hrow, hx⟩ := List.mem_filterMap.1 hx
    obtain ⟨r, hr, rfl⟩ := List.mem_map.1 hrow
    rw [← wf r hr, List.getElem?_append_right (by omega), Nat.sub_self] at hx
    simp at hx
    simp [hx]
  · have e : (m.labels ++ [some l]).findIdx? (· = some l') = m.labels.findIdx? (· = some l') := by
      rw [List.findIdx?_append]
      have : ([some l] : List (Option L)).findIdx? (· = some l') = none := by
        rw [Header.findIdx?_eq_none]; simpa using hll
      rw [this]; simp
    rw [e]
    cases hf : m.labels.findIdx? (· = some l') with
    | none => rfl
    | some c =>
      simp only
      congr 1
      have hclt := findIdx?_lt _ _ _ hf
      have : ∀ rows : List (List α), (∀ r ∈ rows, r.length = m.labels.length) →
          (rows.map (· ++ [sentinel])).filterMap (·[c]?) = rows.filterMap (·[c]?) := by
        intro rows
        induction rows with
        | nil => intro _; rfl
        | cons r rows ih =>
          intro hw
          rw [List.map_cons, List.filterMap_cons, List.filterMap_cons, ih (fun x hx => hw x (by simp [hx])),
            List.getElem?_append_left (by rw [hw r (by simp)]; exact hclt)]
      exact this m.rows wf

theorem column_write (sentinel : α) (l : L) (v : α) (hv : v ≠ sentinel) (m : Matrix α L)
    (wf : ∀ r ∈ m.rows, r.length = m.labels.length) (c : Nat) (hc : m.labels.findIdx? (· = some l) = some c) (l' : L) :
    (column (match m.rows.getLast? with
        | none => ⟨m.labels, [(List.replicate m.labels.length sentinel).set c v]⟩
        | some row =>
          if row[c]? = some sentinel then ⟨m.labels, m.rows.dropLast ++ [row.set c v]⟩
          else ⟨m.labels, m.rows ++ [(List.replicate m.labels.length sentinel).set c v]⟩ : Matrix α L)
      l').filter (· ≠ sentinel)
      = (column m l').filter (· ≠ sentinel) ++ if l' = l then [v] else [] := by
  have hclt := findIdx?_lt _ _ _ hc
  cases hf : m.labels.findIdx? (· = some l') with
  | none =>
    have hne : ¬ l' = l := by
      rintro rfl
      rw [hc] at hf; cases hf
    rw [if_neg hne]
    unfold column
    cases m.rows.getLast? with
    | none => simp only [hf]; rfl
    | some row =>
      simp only
      by_cases hs : row[c]? = some sentinel
      · simp only [if_pos hs, hf]; rfl
      · simp only [if_neg hs, hf]; rfl
  | some c' =>
    have hc'lt := findIdx?_lt _ _ _ hf
    have hcc : c = c' ↔ l' = l := by
      constructor
      · rintro rfl
        have h1 := findIdx?_label _ _ _ hc
        have h2 := findIdx?_label _ _ _ hf
        rw [h1] at h2
        simpa using h2.symm
      · rintro rfl
        rw [hc] at hf
        simpa using hf
    -- the column of a written row
    have hnew : ∀ row : List α, row.length = m.labels.length → (l' = l → True) →
        (([row.set c v].filterMap (·[c']?)).filter (· ≠ sentinel))
          = (if l' = l then [v] else ([row].filterMap (·[c']?)).filter (· ≠ sentinel)) := by
      intro row hrow _
      by_cases hll : l' = l
      · have := hcc.2 hll
        subst this
        rw [if_pos hll]
        have hlt : c < row.length := by omega
        simp [List.filterMap_cons, List.getElem?_set_self hlt, hv]
      · rw [if_neg hll]
        have hne : c ≠ c' := fun h => hll (hcc.1 h)
        simp only [List.filterMap_cons, List.getElem?_set_ne hne]
    have hrep : ([List.replicate m.labels.length sentinel].filterMap (·[c']?)).filter (· ≠ sentinel) = [] := by
      rw [List.filterMap_cons, List.getElem?_replicate, if_pos hc'lt]
      simp
    cases hlast : m.rows.getLast? with
    | none =>
      have hrows : m.rows = [] := List.getLast?_eq_none_iff.1 hlast
      unfold column
      simp only [hf, hrows]
      rw [hnew _ (by simp) (fun _ => trivial), hrep]
      simp
    | some row =>
      obtain ⟨rows, hrows⟩ := List.getLast?_eq_some_iff.1 hlast
      have hrl : row.length = m.labels.length := wf row (by rw [hrows]; simp)
      simp only
      by_cases hs : row[c]? = some sentinel
      · rw [if_pos hs]
        unfold column
        simp only [hf, hrows, List.dropLast_concat, List.filterMap_append, List.filter_append]
        rw [hnew row hrl (fun _ => trivial)]
        by_cases hll : l' = l
        · have := hcc.2 hll
          subst this
          rw [if_pos hll, if_pos hll, List.filterMap_cons, hs]
          simp
        · rw [if_neg hll, if_neg hll]
          simp
      · rw [if_neg hs]
        unfold column
        simp only [hf, List.filterMap_append, List.filter_append]
        rw [hnew _ (by simp) (fun _ => trivial), hrep]

theorem column_debugStep (sentinel : α) (l : L) (v : α) (hv : v ≠ sentinel) (m : Matrix α L)
    (wf : ∀ r ∈ m.rows, r.length = m.labels.length) (l' : L) :
    (column (debugStep sentinel l v m) l').filter (· ≠ sentinel)
      = (column m l').filter (· ≠ sentinel) ++ if l' = l then [v] else [] := by
  by_cases hl : some l ∈ m.labels
  · obtain ⟨c, hc⟩ : ∃ c, m.labels.findIdx? (· = some l) = some c := by
      cases hf : m.labels.findIdx? (· = some l) with
      | none => exact absurd hl ((Header.findIdx?_eq_none _ _).1 hf)
      | some c => exact ⟨c, rfl⟩
    have := column_write sentinel l v hv m wf c hc l'
    unfold debugStep
    simp only [if_pos hl, hc]
    exact this
  · have hc := findIdx?_snoc m.labels l hl
    have wf' : ∀ r ∈ m.rows.map (· ++ [sentinel]), r.length = (m.labels ++ [some l]).length := by
      intro r hr
      obtain ⟨x, hx, rfl⟩ := List.mem_map.1 hr
      simp [wf x hx]
    have := column_write sentinel l v hv ⟨m.labels ++ [some l], m.rows.map (· ++ [sentinel])⟩ wf' _ hc l'
    rw [column_widen sentinel l m wf hl l'] at this
    unfold debugStep
    simp only [if_neg hl, hc]
    exact this

end debug

end Flut
