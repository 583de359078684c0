import Verif.Proofs.Table

/-!
# C34–C38: frame buffers, headers, storages, tables, debug output
-/

namespace Flut

theorem Agree.mono {α β : Type} {R S : α → β → Prop} {x : Res α} {y : Res β} (h : Agree R x y)
    (hRS : ∀ a b, R a b → S a b) : Agree S x y := by
  cases x <;> cases y <;> simp_all [Agree]

/-! ## C34: `circular_frame_buffer` -/

/-- For a buffer of `n` frames and any history of `add_frame` and writes to retained frames: nothing is undefined, and the
last value written to any cell of the last `n` frames is what `operator()`, `operator[]` and `reverse` return. -/
theorem C34_retains {α L : Type} [DecidableEq L] (dl : L) (dv : α) (n ch : Nat) (ops : List (FrameBuf.Op α))
    (h : FrameSpec.Legal n ch ops) (hsz : FrameSpec.frames ops < 2 ^ 64) :
    ∃ b : FrameBuf α L, FrameBuf.runAll ops (FrameBuf.new dl dv ch n) = .ok b ∧
      b.frames = FrameSpec.frames ops ∧ b.addFrame.1 = FrameSpec.frames ops + 1 ∧
      ∀ f c v, FrameSpec.Retained n (FrameSpec.frames ops) f → c < ch → FrameSpec.written f c ops = some v →
        b.get f c = .ok v ∧ b.reverse (FrameSpec.frames ops - 1 - f) c = .ok v ∧
        (f + 1 = FrameSpec.frames ops → b.last c = .ok v) := by
  obtain ⟨b, h1, r⟩ := FrameBuf.rep_runAll ops (FrameBuf.rep_new (L := L) dl dv ch n) (by simpa using h)
  simp only [List.nil_append] at r
  refine ⟨b, h1, r.frames, by rw [FrameBuf.addFrame, r.frames], ?_⟩
  intro f c v hf hc hw
  have hg := r.get f c v hf hc hw
  have hlt := hf.1
  refine ⟨hg, ?_, ?_⟩
  · have e : subWrap (subWrap b.frames (FrameSpec.frames ops - 1 - f)) 1 = f := by
      rw [r.frames]; unfold subWrap; omega
    unfold FrameBuf.reverse
    rw [e]; exact hg
  · intro he
    have e : subWrap b.frames 1 = f := by
      rw [r.frames]; unfold subWrap; omega
    unfold FrameBuf.last
    rw [e]; exact hg

/-- A history that goes twice around a buffer of two frames and writes to the newest and to the one before. -/
example : FrameSpec.Legal 2 3 [.addFrame, .put 0 0 10, .addFrame, .addFrame, .put 2 1 11, .put 1 2 (12 : Nat)] := by
  intro pre f c x post h
  match pre, h with
  | [_], h => simp at h; obtain ⟨rfl, ⟨rfl, rfl, rfl⟩, _⟩ := h; unfold FrameSpec.Retained; decide
  | [_, _, _, _], h =>
    simp at h; obtain ⟨rfl, rfl, rfl, rfl, ⟨rfl, rfl, rfl⟩, _⟩ := h; unfold FrameSpec.Retained; decide
  | [_, _, _, _, _], h =>
    simp at h; obtain ⟨rfl, rfl, rfl, rfl, rfl, ⟨rfl, rfl, rfl⟩, _⟩ := h; unfold FrameSpec.Retained; decide
  | [], h => simp at h
  | [_, _], h => simp at h
  | [_, _, _], h => simp at h
  | _ :: _ :: _ :: _ :: _ :: _ :: r, h => simp at h

example : (FrameBuf.runAll [.addFrame, .put 0 0 10, .addFrame, .addFrame, .put 2 1 11, .put 1 2 12]
    (FrameBuf.new b!"" 0 3 2) >>= FrameBuf.reverse 1 2) = .ok 12 := by decide +kernel

/-- Once at least `n` frames were added, `at` accepts exactly the retained frames and existing channels, and then
returns what `operator()` does. -/
theorem C34_at_partial {α L : Type} [DecidableEq L] (b : FrameBuf α L) (hn : b.bufSize ≤ b.frames)
    (hsz : b.frames < 2 ^ 64) (f c : Nat) :
    b.at' f c = if FrameSpec.Retained b.bufSize b.frames f ∧ c < b.channels then b.get f c
      else .throws .assertion := by
  have e : subWrap b.frames b.bufSize = b.frames - b.bufSize := by unfold subWrap; omega
  unfold FrameBuf.at' FrameSpec.Retained
  rw [e]
  by_cases h : f ≥ b.frames - b.bufSize ∧ f < b.frames ∧ c < b.channels
  · rw [if_pos h, if_pos (by omega)]
  · rw [if_neg h, if_neg (by omega)]

/-- Before that `at` accepts nothing at all, not even the frame just written: the full property is false. -/
theorem C34_at_refuted {α L : Type} [DecidableEq L] (b : FrameBuf α L) (hn : b.frames < b.bufSize)
    (hsz : 2 * b.bufSize < 2 ^ 64) (f c : Nat) : b.at' f c = .throws .assertion := by
  unfold FrameBuf.at'
  rw [if_neg]
  unfold subWrap
  omega

example : ∃ b : FrameBuf Nat Str, FrameBuf.runAll [.addFrame, .put 0 0 10] (FrameBuf.new b!"" 0 1 2) = .ok b ∧
    b.get 0 0 = .ok 10 ∧ b.at' 0 0 = .throws .assertion := ⟨_, rfl, by decide +kernel, by decide +kernel⟩

/-- What `add_frame` returns is the number of frames, not the index of the new one: written to as an index, it changes the oldest
frame that is kept. -/
theorem C34_add_frame_index_refuted : ∃ b b' : FrameBuf Nat Str,
    FrameBuf.runAll [.addFrame, .put 0 0 10] (FrameBuf.new b!"" 0 1 2) = .ok b ∧ b.get 0 0 = .ok 10 ∧
    b.addFrame.2.put b.addFrame.1 0 5 = .ok b' ∧ b'.get 0 0 = .ok 5 ∧ b'.last 0 = .ok 0 :=
  ⟨_, _, rfl, by decide +kernel, rfl, by decide +kernel, by decide +kernel⟩

/-- Adding a channel to a buffer that holds no frames yet makes it hold none ever: reading is then undefined. -/
theorem C34_add_channel_refuted : ∃ b : FrameBuf Nat Str,
    (FrameBuf.new b!"" 0 1 4).addChannel b!"" 0 b!"x" = .ok (1, b) ∧ b.bufSize = 0 ∧
      b.addFrame.2.put 0 1 5 = .ub := ⟨_, rfl, rfl, rfl⟩

/-! ## C35: `data_header` -/

/-- For every history of `add`, growing and labelling the new last entry, `resize` and `clear`, the header holds the list
of labels that the history describes: every label is found at the index that carries it, others are not found, and giving
a label twice or shrinking throws. -/
theorem C35_header {L : Type} [DecidableEq L] (dl : L) (n : Nat) (ops : List (Header.Op L)) :
    Agree (HeaderShows dl) (Header.runAll dl ops (Header.new dl n)) (HeaderSpec.run ops (List.replicate n none)) :=
  (Header.rep_runAll ops (Header.rep_new dl n)).mono fun _ _ r => r.shows

/-- In particular `find` returns an index that carries the label. -/
theorem C35_find_sound {L : Type} [DecidableEq L] (dl : L) (n : Nat) (ops : List (Header.Op L)) (h : Header L)
    (hr : Header.runAll dl ops (Header.new dl n) = .ok h) (l : L) (i : Nat) (hf : h.find l = .ok (some i)) :
    h.get i = .ok l := by
  have := C35_header dl n ops
  rw [hr] at this
  cases hs : HeaderSpec.run ops (List.replicate n none) with
  | ok ls =>
    rw [hs] at this
    have hsh : HeaderShows dl h ls := this
    rw [hsh.find l] at hf
    injection hf with hf
    have h1 := findIdx?_lt _ _ _ hf
    have h2 := findIdx?_label _ _ _ hf
    rw [List.getElem?_eq_getElem h1] at h2
    rw [hsh.get i h1]
    simp only [Option.some.injEq] at h2
    rw [h2]; rfl
  | throws e => rw [hs] at this; exact this.elim
  | ub => rw [hs] at this; exact this.elim
  | diverges => rw [hs] at this; exact this.elim

example : ∃ h, Header.runAll b!"" [.add b!"a", .append b!"b", .resize 5, .append b!"c"] (Header.new b!"" 1) = .ok h ∧
    h.find b!"c" = .ok (some 5) ∧ h.get 5 = .ok b!"c" ∧ h.find b!"d" = .ok none :=
  ⟨_, rfl, by decide +kernel, by decide +kernel, by decide +kernel⟩

/-- Labelling an entry other than the last makes `find` return the wrong index. -/
theorem C35_set_refuted : ∃ h, (Header.new b!"" 3).set 0 b!"a" = .ok (0, h) ∧ h.get 0 = .ok b!"a" ∧
    h.find b!"a" = .ok (some 2) ∧ h.get 2 = .ok b!"" := ⟨_, rfl, rfl, rfl, rfl⟩

/-- After relabelling, the old label is still found. -/
theorem C35_relabel_refuted : ∃ h h', (Header.new b!"" 1).set 0 b!"a" = .ok (0, h) ∧ h.set 0 b!"b" = .ok (0, h') ∧
    h'.get 0 = .ok b!"b" ∧ h'.find b!"a" = .ok (some 0) := ⟨_, _, rfl, rfl, rfl, rfl⟩

/-- A header constructed from labels finds none of them. -/
theorem C35_of_labels_refuted {L : Type} [DecidableEq L] (ls : List L) (l : L) :
    (Header.ofLabels ls).find l = .ok none ∧ (Header.ofLabels ls).labels = ls := ⟨rfl, rfl⟩

/-! ## C36: `storage` -/

/-- For every history of `add_channel`, `add_frame`, `resize`, `clear` and cell writes the storage is the matrix that
the history describes, cell by cell; it throws exactly when the description does (repeated label, shrinking, wrong frame
length, index out of range) and nothing is undefined. -/
theorem C36_storage {α L : Type} [DecidableEq L] (dl : L) (dv : α) (frames channels : Nat) (value : α)
    (ops : List (Storage.Op α L)) :
    Agree (StorageShows dl) (Storage.runAll dl dv ops (Storage.new dl frames channels value))
      (Matrix.run dv ops (Matrix.init frames channels value)) :=
  (Storage.rep_runAll dv ops (Storage.rep_new dl frames channels value)).mono fun _ _ r => r.shows

/-- One step, in words of cells: an operation other than `clear` that succeeds keeps every existing cell it does not
write to. -/
theorem C36_growth_keeps_cells {α L : Type} [DecidableEq L] (dl : L) (dv : α) (frames channels : Nat) (value : α)
    (ops : List (Storage.Op α L)) (op : Storage.Op α L) (s s' : Storage α L)
    (h : Storage.runAll dl dv ops (Storage.new dl frames channels value) = .ok s)
    (h' : Storage.run dl dv op s = .ok s') (hop : op ≠ .clear) (f c : Nat) (hf : f < s.frames) (hc : c < s.channels)
    (hput : ∀ x, op ≠ .put f c x) : s'.at' f c = s.at' f c := by
  have h1 := Storage.rep_runAll dv ops (Storage.rep_new dl frames channels value)
  rw [h] at h1
  cases hm : Matrix.run dv ops (Matrix.init frames channels value : Matrix α L) with
  | throws e => rw [hm] at h1; exact h1.elim
  | ub => rw [hm] at h1; exact h1.elim
  | diverges => rw [hm] at h1; exact h1.elim
  | ok m =>
    rw [hm] at h1
    have r : Storage.Rep dl s m := h1
    have h2 := Storage.rep_run dv r op
    rw [h'] at h2
    cases hm' : m.step dv op with
    | throws e => rw [hm'] at h2; exact h2.elim
    | ub => rw [hm'] at h2; exact h2.elim
    | diverges => rw [hm'] at h2; exact h2.elim
    | ok m' =>
      rw [hm'] at h2
      have r' : Storage.Rep dl s' m' := h2
      have hf0 : f < m.rows.length := by rw [← r.frames]; exact hf
      have hc0 : c < m.labels.length := by rw [← r.channels]; exact hc
      have hrow : c < (m.rows[f]).length := by rw [r.wf _ (List.getElem_mem _)]; exact hc0
      -- the matrix keeps the cell
      have key : f < m'.rows.length ∧ c < m'.labels.length ∧
          m'.rows[f]?.bind (·[c]?) = m.rows[f]?.bind (·[c]?) := by
        have e0 : m.rows[f]?.bind (·[c]?) = some m.rows[f][c] := by simp [hf0, hrow]
        rw [e0]
        cases op with
        | addChannel l v =>
          simp only [Matrix.step] at hm'
          split at hm'
          · cases hm'
          · injection hm' with hm'
            subst hm'
            refine ⟨by simpa using hf0, by simp; omega, ?_⟩
            simp [hf0, List.getElem?_append_left hrow, hrow]
        | addChannelData l xs =>
          simp only [Matrix.step] at hm'
          split at hm'
          · cases hm'
          · injection hm' with hm'
            subst hm'
            refine ⟨by simp; omega, by simp; omega, ?_⟩
            have : f < max m.rows.length xs.length := by omega
            simp only [List.getElem?_map, List.getElem?_range this, Option.map_some, Option.bind_some]
            rw [List.getElem?_append_left (by simpa [hf0] using hrow)]
            simp [hf0, hrow]
        | addFrame v =>
          simp only [Matrix.step] at hm'
          injection hm' with hm'
          subst hm'
          refine ⟨by simp; omega, hc0, ?_⟩
          simp [List.getElem?_append_left hf0, hf0, hrow]
        | addFrameData xs =>
          simp only [Matrix.step] at hm'
          split at hm'
          · injection hm' with hm'
            subst hm'
            refine ⟨by simp; omega, hc0, ?_⟩
            simp [List.getElem?_append_left hf0, hf0, hrow]
          · cases hm'
        | resize nf nc v =>
          simp only [Matrix.step] at hm'
          split at hm'
          · cases hm'
          · injection hm' with hm'
            subst hm'
            refine ⟨by simp; omega, by simp; omega, ?_⟩
            have hf1 : f < (m.rows.map (· ++ List.replicate (nc - m.cols) v)).length := by simpa using hf0
            rw [List.getElem?_append_left hf1]
            simp [hf0, List.getElem?_append_left hrow, hrow]
        | put f' c' x =>
          simp only [Matrix.step] at hm'
          split at hm'
          · injection hm' with hm'
            subst hm'
            refine ⟨by simpa using hf0, hc0, ?_⟩
            by_cases hff : f' = f
            · subst hff
              have hcc : c' ≠ c := by
                rintro rfl
                exact hput x rfl
              simp [hf0, hrow, List.getElem_set_ne hcc]
            · simp only
              rw [Storage.getElem?_modify_other _ _ _ _ hff]
              simp [hf0, hrow]
          · cases hm'
        | clear => exact absurd rfl hop
      obtain ⟨x, e1, e2, _⟩ := r.shows.cell f c hf0 hc0
      obtain ⟨y, e3, e4, _⟩ := r'.shows.cell f c key.1 key.2.1
      rw [e2, e4]
      rw [key.2.2, e1] at e3
      injection e3 with e3
      rw [e3]

example : Storage.runAll b!"" 0
    [.addChannel b!"a" 1, .addFrame 2, .addFrame 3, .addChannel b!"b" 4, .put 1 1 9, .resize 3 3 7]
    (Storage.new b!"" 0 0 0) = .ok ⟨3, ⟨[b!"a", b!"b", b!""], [(b!"a", 0), (b!"b", 1)]⟩, [2, 4, 7, 3, 9, 7, 7, 7, 7]⟩ := by
  decide +kernel

/-- Adding a channel under a label that exists throws, but leaves an additional unlabelled channel behind: the sizes are
not as requested. -/
theorem C36_duplicate_label_refuted : ∃ s s' : Storage Nat Str,
    (Storage.new b!"" 1 0 0).addChannel b!"" b!"a" 5 = (s, .ok 0) ∧
      s.addChannel b!"" b!"a" 6 = (s', .throws .assertion) ∧ s.channels = 1 ∧ s'.channels = 2 :=
  ⟨_, _, rfl, rfl, rfl, rfl⟩

/-! ## C37: `table` -/

/-- For every history of `add_row`, `add_column` (whose default value is `T()`) and cell writes the table is the matrix
that the history describes. Missing from the full property: other default values, and `resize` that adds rows. -/
theorem C37_table_partial {α L : Type} [DecidableEq L] (dl : L) (dv : α) (rows cols : Nat)
    (ops : List (Table.Op α L)) (h : ∀ l v, .addColumn l v ∈ ops → v = dv) :
    Agree (TableShows dl) (Table.runAll dl dv ops (Table.new dl dv rows cols)) (LMatrix.run ops (LMatrix.init rows cols dv)) :=
  (Table.rep_runAll dv ops (Table.rep_new dl dv rows cols) h).mono fun _ _ r => r.shows

example : Table.runAll b!"" 0
    [.addRow b!"r" 1, .addColumn b!"c" 0, .put 0 0 5, .addRow b!"s" 2, .addColumn b!"d" 0, .put 1 1 (8 : Nat)]
    (Table.new b!"" 0 0 0) = .ok ⟨⟨[b!"r", b!"s"], [(b!"r", 0), (b!"s", 1)]⟩, ⟨[b!"c", b!"d"], [(b!"c", 0), (b!"d", 1)]⟩,
      [5, 0, 2, 8]⟩ := by decide +kernel

/-- `resize` to more columns keeps all cells and fills the new ones with `T()`. -/
theorem C37_resize_columns_partial {α L : Type} [DecidableEq L] (dl : L) (dv : α) (t : Table α L) (m : LMatrix α L)
    (r : Table.Rep dl t m) (cols : Nat) (hc : m.colLabels.length ≤ cols) :
    ∃ t', t.resize dl dv m.rowLabels.length cols = .ok t' ∧
      TableShows dl t' ⟨m.rowLabels, m.colLabels ++ List.replicate (cols - m.colLabels.length) none,
        m.rows.map (· ++ List.replicate (cols - m.colLabels.length) dv)⟩ := by
  obtain ⟨t', h1, h2⟩ := Table.rep_resize_cols dv r cols hc
  exact ⟨t', h1, h2.shows⟩

example : Table.Rep b!"" (Table.new b!"" 7 2 3 : Table Nat Str) (LMatrix.init 2 3 7) := Table.rep_new b!"" 7 2 3

/-- `resize` that adds rows to a table with columns writes outside the data, for every table. -/
theorem C37_resize_rows_refuted {α L : Type} [DecidableEq L] (dl : L) (dv : α) (rows cols : Nat) (t : Table α L)
    (hr : t.rows.size < rows) (hc : t.cols.size ≤ cols) (hpos : 0 < cols) : t.resize dl dv rows cols = .ub := by
  unfold Table.resize
  rw [if_neg (by omega)]
  obtain ⟨n, hn⟩ : ∃ n, rows * cols = n + 1 := by
    refine ⟨rows * cols - 1, ?_⟩
    have : 0 < rows * cols := Nat.mul_pos (by omega) hpos
    omega
  have hle : (t.rows.size + 1) * cols ≤ rows * cols := Nat.mul_le_mul_right _ hr
  rw [Nat.add_mul] at hle
  have hdiv : n / cols = rows - 1 := by
    have h1 : rows * cols = (rows - 1) * cols + cols := by
      rw [← Nat.succ_mul]; congr 1; omega
    have : n = cols * (rows - 1) + (cols - 1) := by
      rw [Nat.mul_comm cols]; omega
    rw [this, Nat.mul_add_div hpos, Nat.div_eq_of_lt (by omega)]
    omega
  rw [hn]
  simp only [Table.moveCells]
  rw [if_neg (by rw [hdiv]; omega)]
  have hlen : (vresize t.data (t.rows.size * cols) dv).length = t.rows.size * cols := by
    unfold vresize
    simp only [List.length_append, List.length_take, List.length_replicate]
    omega
  have hset : ∀ x, vset (vresize t.data (t.rows.size * cols) dv) (cols * (n / cols) + n % cols) x = .ub := by
    intro x
    unfold vset
    rw [Nat.div_add_mod, if_neg (by rw [hlen]; omega)]
  simp only [Res.bind_ok, hset]
  rfl

example : (Table.new b!"" 0 1 2).rows.size < 3 := by decide

/-- `resize` to fewer rows or fewer columns is refused. -/
theorem C37_resize_shrink {α L : Type} [DecidableEq L] (dl : L) (dv : α) (t : Table α L) (m : LMatrix α L)
    (r : TableShows dl t m) (rows cols : Nat) (h : rows < m.rowLabels.length ∨ cols < m.colLabels.length) :
    t.resize dl dv rows cols = .throws .flutError := by
  unfold Table.resize
  rw [if_pos]
  have h1 := r.rowLabels.size
  have h2 := r.colLabels.size
  omega

example : TableShows b!"" (Table.new b!"" 7 2 3 : Table Nat Str) (LMatrix.init 2 3 7) := (Table.rep_new b!"" 7 2 3).shows

/-- `add_column` ignores its default value. -/
theorem C37_column_default_refuted : ∃ t : Table Nat Str,
    (Table.new b!"" 0 1 0).addColumn b!"" 0 b!"c" 5 = .ok (0, t) ∧ t.get 0 0 = .ok 0 := ⟨_, rfl, rfl⟩

/-- For a valid table, writing to `t( row, col )` by labels gives the same table in whichever order the compiler evaluates
the two arguments. -/
theorem C37_label_order {α L : Type} [DecidableEq L] (dl : L) (dv : α) (t : Table α L) (m : LMatrix α L)
    (r : Table.Rep dl t m) (row col : L) (x : α) :
    ∃ t1 t2 m', t.putLabel true dl dv row col x = .ok t1 ∧ t.putLabel false dl dv row col x = .ok t2 ∧
      TableShows dl t1 m' ∧ TableShows dl t2 m' := by
  have hrow : ∀ {t : Table α L} {m : LMatrix α L}, Table.Rep dl t m → ∃ i t' , t.getOrAddRow row dv = .ok (i, t') ∧
      ((some row ∈ m.rowLabels ∧ m.rowLabels.findIdx? (· = some row) = some i ∧ Table.Rep dl t' m) ∨
       (some row ∉ m.rowLabels ∧ i = m.rowLabels.length ∧
        Table.Rep dl t' ⟨m.rowLabels ++ [some row], m.colLabels, m.rows ++ [List.replicate m.colLabels.length dv]⟩)) := by
    intro t m r
    unfold Table.getOrAddRow
    rw [Header.find_eq, r.rowLabels.find]
    cases hf : m.rowLabels.findIdx? (· = some row) with
    | some i =>
      have : some row ∈ m.rowLabels := by
        by_cases h : some row ∈ m.rowLabels
        · exact h
        · rw [(Header.findIdx?_eq_none _ _).2 h] at hf; cases hf
      exact ⟨i, t, rfl, Or.inl ⟨this, rfl, r⟩⟩
    | none =>
      have hn := (Header.findIdx?_eq_none _ _).1 hf
      obtain ⟨t', h1, h2⟩ := Table.rep_addRow r row dv hn
      exact ⟨_, t', h1, Or.inr ⟨hn, rfl, h2⟩⟩
  have hcol : ∀ {t : Table α L} {m : LMatrix α L}, Table.Rep dl t m → ∃ i t' , t.getOrAddColumn dl dv col dv = .ok (i, t') ∧
      ((some col ∈ m.colLabels ∧ m.colLabels.findIdx? (· = some col) = some i ∧ Table.Rep dl t' m) ∨
       (some col ∉ m.colLabels ∧ i = m.colLabels.length ∧
        Table.Rep dl t' ⟨m.rowLabels, m.colLabels ++ [some col], m.rows.map (· ++ [dv])⟩)) := by
    intro t m r
    unfold Table.getOrAddColumn
    rw [Header.find_eq, r.colLabels.find]
    cases hf : m.colLabels.findIdx? (· = some col) with
    | some i =>
      have : some col ∈ m.colLabels := by
        by_cases h : some col ∈ m.colLabels
        · exact h
        · rw [(Header.findIdx?_eq_none _ _).2 h] at hf; cases hf
      exact ⟨i, t, rfl, Or.inl ⟨this, rfl, r⟩⟩
    | none =>
      have hn := (Header.findIdx?_eq_none _ _).1 hf
      obtain ⟨t', h1, h2⟩ := Table.rep_addColumn dv r col dv hn
      exact ⟨_, t', h1, Or.inr ⟨hn, rfl, h2⟩⟩
  -- both orders lead to the same indices and the same matrix
  have fin : ∀ {i j : Nat} {ta tb : Table α L} {m' : LMatrix α L}, Table.Rep dl ta m' → Table.Rep dl tb m' →
      i < m'.rows.length → j < m'.colLabels.length →
      ∃ t1 t2 m'', ta.put i j x = .ok t1 ∧ tb.put i j x = .ok t2 ∧ TableShows dl t1 m'' ∧ TableShows dl t2 m'' := by
    intro i j ta tb m' ra rb hi hj
    obtain ⟨t1, h1, r1⟩ := Table.rep_put ra i j x hi hj
    obtain ⟨t2, h2, r2⟩ := Table.rep_put rb i j x hi hj
    exact ⟨t1, t2, _, h1, h2, r1.shows, r2.shows⟩
  obtain ⟨i, ta, ea, ha⟩ := hrow r
  obtain ⟨j, tb, eb, hb⟩ := hcol r
  unfold Table.putLabel
  simp only [if_true, Bool.false_eq_true, if_false, ea, eb, Res.bind_ok]
  rcases ha with ⟨hr1, hr2, ra⟩ | ⟨hr1, hr2, ra⟩ <;> rcases hb with ⟨hc1, hc2, rb⟩ | ⟨hc1, hc2, rb⟩ <;>
    obtain ⟨j', tc, ec, hc⟩ := hcol ra <;> obtain ⟨i', td, ed, hd⟩ := hrow rb <;>
    simp only [ec, ed, Res.bind_ok]
  · rcases hc with ⟨_, hj, rc⟩ | ⟨hno, _, _⟩
    · rcases hd with ⟨_, hi, rd⟩ | ⟨hno, _, _⟩
      · rw [hc2] at hj; injection hj with hj; subst hj
        rw [hr2] at hi; injection hi with hi; subst hi
        exact fin rc rd (by rw [r.rows]; exact findIdx?_lt _ _ _ hr2) (findIdx?_lt _ _ _ hc2)
      · exact absurd hr1 hno
    · exact absurd hc1 hno
  · rcases hc with ⟨hyes, _, _⟩ | ⟨_, hj, rc⟩
    · exact absurd hyes hc1
    · rcases hd with ⟨_, hi, rd⟩ | ⟨hno, _, _⟩
      · subst hj; subst hc2
        rw [hr2] at hi; injection hi with hi; subst hi
        exact fin rc rd (by simp only [List.length_map]; rw [r.rows]; exact findIdx?_lt _ _ _ hr2) (by simp)
      · exact absurd hr1 hno
  · rcases hc with ⟨_, hj, rc⟩ | ⟨hno, _, _⟩
    · rcases hd with ⟨hyes, _, _⟩ | ⟨_, hi, rd⟩
      · exact absurd hyes hr1
      · subst hi; subst hr2
        rw [hc2] at hj; injection hj with hj; subst hj
        exact fin rc rd (by simp [r.rows]) (findIdx?_lt _ _ _ hc2)
    · exact absurd hc1 hno
  · rcases hc with ⟨hyes, _, _⟩ | ⟨_, hj, rc⟩
    · exact absurd hyes hc1
    · rcases hd with ⟨hyes, _, _⟩ | ⟨_, hi, rd⟩
      · exact absurd hyes hr1
      · subst hi; subst hr2; subst hj; subst hc2
        have : (m.rows ++ [List.replicate m.colLabels.length dv]).map (· ++ [dv])
            = m.rows.map (· ++ [dv]) ++ [List.replicate (m.colLabels ++ [some col]).length dv] := by
          simp [List.replicate_succ']
        simp only [this] at rc
        exact fin rc rd (by simp [r.rows]) (by simp)

/-! ## C38: `write_debug` -/

/-- After any sequence of `write_debug( label, value )`, none of the values being the sentinel, the entries of each
label's column that are not the sentinel are exactly the values written to that label, in order. -/
theorem C38_debug {α L : Type} [DecidableEq α] [DecidableEq L] (dl : L) (dv sentinel : α) (ws : List (L × α))
    (h : ∀ w ∈ ws, w.2 ≠ sentinel) :
    ∃ (s : Storage α L) (m : Matrix α L), debugWriteAll dl sentinel ws (Storage.new dl 0 0 dv) = .ok s ∧
      StorageShows dl s m ∧
      ∀ l, (column m l).filter (· ≠ sentinel) = (ws.filter (·.1 = l)).map Prod.snd := by
  have : ∀ (ws : List (L × α)) (s : Storage α L) (m : Matrix α L), Storage.Rep dl s m →
      (∀ w ∈ ws, w.2 ≠ sentinel) →
      ∃ (s' : Storage α L) (m' : Matrix α L), debugWriteAll dl sentinel ws s = .ok s' ∧ Storage.Rep dl s' m' ∧
        ∀ l, (column m' l).filter (· ≠ sentinel)
          = (column m l).filter (· ≠ sentinel) ++ (ws.filter (·.1 = l)).map Prod.snd := by
    intro ws
    induction ws with
    | nil => exact fun s m r _ => ⟨s, m, rfl, r, by simp⟩
    | cons w ws ih =>
      obtain ⟨l, v⟩ := w
      intro s m r hw
      have hv : v ≠ sentinel := hw (l, v) (by simp)
      obtain ⟨s1, h1, r1⟩ := rep_debugWrite r sentinel l v
      obtain ⟨s2, m2, h2, r2, h3⟩ := ih s1 _ r1 (fun w hw' => hw w (by simp [hw']))
      refine ⟨s2, m2, by simp [debugWriteAll, h1, h2], r2, ?_⟩
      intro l'
      rw [h3 l', column_debugStep sentinel l v hv m r.wf l']
      by_cases hll : l' = l
      · subst hll
        rw [if_pos rfl, List.filter_cons_of_pos (by simp)]
        simp
      · rw [if_neg hll, List.filter_cons_of_neg (by simpa using fun h : l = l' => hll h.symm)]
        simp
  obtain ⟨s, m, h1, h2, h3⟩ := this ws (Storage.new dl 0 0 dv) _ (Storage.rep_new dl 0 0 dv) h
  refine ⟨s, m, h1, h2.shows, ?_⟩
  intro l
  rw [h3 l]
  simp [column, Matrix.init]

example : debugWriteAll b!"" 0 [(b!"a", 1), (b!"b", 2), (b!"a", 3), (b!"a", 4), (b!"b", 5)] (Storage.new b!"" 0 0 0)
    = .ok ⟨3, ⟨[b!"a", b!"b"], [(b!"a", 0), (b!"b", 1)]⟩, [1, 2, 3, 0, 4, 5]⟩ := by decide +kernel

end Flut
