import Verif.Proofs.DataThrow

/-!
# C148: going on with a storage or a table after an exception
-/

namespace Flut

/-- What a storage is after any calls, whether they threw or not: nothing is ever undefined, the storage shows the matrix that
the calls describe, and the calls that throw are those that the description says. -/
theorem C148_storage {α L : Type} [DecidableEq L] (dl : L) (dv : α) (frames channels : Nat) (value : α)
    (cs : List (Storage.Call α L)) :
    ∃ s, Storage.calls dl dv cs (Storage.new dl frames channels value)
        = .ok (s, (Matrix.calls dv cs (Matrix.init frames channels value)).2) ∧
      StorageShows dl s (Matrix.calls dv cs (Matrix.init frames channels value)).1 := by
  obtain ⟨s, h, r⟩ := Storage.rep_calls dv cs (Storage.rep_new dl frames channels value)
  exact ⟨s, h, r.shows⟩

/-- A call that does not throw does what it does in a history without exceptions, and one that throws ends such a history with
that exception. -/
theorem C148_same {α L : Type} [DecidableEq L] (dl : L) (dv : α) (op : Storage.Op α L) (s s' : Storage α L) :
    (Storage.run dl dv op s = .ok s' ↔ Storage.call dl dv (.op op) s = (s', .ok ())) ∧
      ∀ e, Storage.run dl dv op s = .throws e ↔ (Storage.call dl dv (.op op) s).2 = .throws e := by
  have lb : ∀ (x : Res (Storage α L)), (x = .ok s' ↔ leftBy s x = (s', .ok ())) ∧
      ∀ e, x = .throws e ↔ (leftBy s x).2 = .throws e := by
    intro x
    cases x <;> simp [leftBy]
  cases op with
  | addChannel l v =>
    simp only [Storage.run, Storage.call]
    cases h : s.addChannel dl l v with
    | mk s1 o =>
      cases o <;> simp [bind, Res.bind]
  | addChannelData l xs =>
    simp only [Storage.run, Storage.call, Storage.addChannelData, Storage.addChannelDataLeft]
    cases h1 : s.resize dl (max s.frames xs.length) (s.channels + 1) dv with
    | ok s1 =>
      simp only [Res.bind_ok]
      cases h2 : s1.labels.set (s1.channels - 1) l with
      | ok p =>
        obtain ⟨i, ls⟩ := p
        simp only [Res.bind_ok]
        cases h3 : Storage.putColumn (Storage.channels ⟨s1.frames, ls, s1.data⟩ - 1) 0 xs ⟨s1.frames, ls, s1.data⟩ <;>
          simp [leftBy]
      | throws e => simp [bind, Res.bind]
      | ub => simp [bind, Res.bind]
      | diverges => simp [bind, Res.bind]
    | throws e => simp [bind, Res.bind]
    | ub => simp [bind, Res.bind]
    | diverges => simp [bind, Res.bind]
  | addFrame v => simp [Storage.run, Storage.call]
  | addFrameData xs => exact lb _
  | resize nf nc v => exact lb _
  | put f c x => exact lb _
  | clear => simp [Storage.run, Storage.call]

/-- A call that throws loses nothing: every cell and every label that the storage showed is still there. -/
theorem C148_keeps {α L : Type} [DecidableEq L] (dl : L) (dv : α) (frames channels : Nat) (value : α)
    (cs : List (Storage.Call α L)) (s : Storage α L) (es : List (Option Exn))
    (hs : Storage.calls dl dv cs (Storage.new dl frames channels value) = .ok (s, es)) (c : Storage.Call α L)
    (e : Exn) (he : (Storage.call dl dv c s).2 = .throws e) : StorageKeeps s (Storage.call dl dv c s).1 := by
  obtain ⟨s1, h1, r⟩ := Storage.rep_calls dv cs (Storage.rep_new dl frames channels value)
  rw [hs] at h1
  injection h1 with h1
  injection h1 with h1 _
  subst h1
  generalize (Matrix.calls dv cs (Matrix.init frames channels value)).1 = m at r
  obtain ⟨r', h2⟩ := Storage.rep_call dv r c
  rw [he] at h2
  have hm : (m.call dv c).2 = some e := outcomeOf_inj h2.symm
  obtain ⟨h3, h4, h5⟩ := Storage.call_ext dv m c e hm
  exact Storage.keeps_of_rep r r' h3 h4 h5

/-- Calls that throw leave the storage exactly as it was, unless they were to make a channel: `add_frame`, `resize`, writing a
cell, and writing by a label that is known. -/
theorem C148_unchanged {α L : Type} [DecidableEq L] (dl : L) (dv : α) (s : Storage α L) (c : Storage.Call α L) (e : Exn)
    (he : (Storage.call dl dv c s).2 = .throws e)
    (hc : match c with
      | .op (.addChannel _ _) => False
      | .op (.addChannelData _ _) => False
      | .putLabel l _ => ∃ i, s.findChannel l = .ok (some i)
      | _ => True) : (Storage.call dl dv c s).1 = s := by
  have lb : ∀ (x : Res (Storage α L)), (leftBy s x).2 = .throws e → (leftBy s x).1 = s := by
    intro x
    cases x <;> simp [leftBy]
  cases c with
  | putLabel l x =>
    obtain ⟨i, hi⟩ := hc
    simp only [Storage.call, Storage.putLabelLeft, hi] at he ⊢
    exact lb _ he
  | op op =>
    cases op with
    | addChannel l v => exact hc.elim
    | addChannelData l xs => exact hc.elim
    | addFrame v => cases he
    | addFrameData xs => exact lb _ he
    | resize nf nc v => exact lb _ he
    | put f c x => exact lb _ he
    | clear => cases he

/-- A program that goes on after four exceptions. -/
example : ∃ s, Storage.calls b!"" 0 [.op (.addChannel b!"a" 1), .putLabel b!"b" 2, .op (.addFrame 3), .putLabel b!"b" 4,
      .op (.addChannel b!"a" 5), .op (.addFrameData [6]), .op (.addFrameData [6, 7, 8]), .op (.put 9 9 9),
      .op (.addChannel b!"c" 5)] (Storage.new b!"" 0 0 0)
    = .ok (s, [none, some .assertion, none, none, some .assertion, some .assertion, none, some .assertion, none]) ∧
    s.frames = 2 ∧ s.channels = 4 ∧ s.at' 0 1 = .ok 4 ∧ s.at' 0 2 = .ok 5 ∧ s.at' 1 2 = .ok 8 ∧
    s.findChannel b!"c" = .ok (some 3) ∧ s.findChannel b!"a" = .ok (some 0) :=
  ⟨_, rfl, by decide +kernel, by decide +kernel, by decide +kernel, by decide +kernel, by decide +kernel, by decide +kernel,
    by decide +kernel⟩

/-- A repeated label makes a channel without a label although the call throws, for every storage that can be reached: the
frames that could be added before are then refused. -/
theorem C148_repeated_refuted {α L : Type} [DecidableEq L] (dl : L) (dv : α) (frames channels : Nat) (value : α)
    (cs : List (Storage.Call α L)) (s : Storage α L) (es : List (Option Exn))
    (hs : Storage.calls dl dv cs (Storage.new dl frames channels value) = .ok (s, es)) (l : L) (i : Nat)
    (hl : s.findChannel l = .ok (some i)) (v : α) :
    (Storage.call dl dv (.op (.addChannel l v)) s).2 = .throws .assertion ∧
      (Storage.call dl dv (.op (.addChannel l v)) s).1.channels = s.channels + 1 ∧
      ∀ xs : List α, (Storage.call dl dv (.op (.addFrameData xs)) s).2 = .ok () →
        (Storage.call dl dv (.op (.addFrameData xs)) (Storage.call dl dv (.op (.addChannel l v)) s).1).2
          = .throws .assertion := by
  obtain ⟨s1, h1, r⟩ := Storage.rep_calls dv cs (Storage.rep_new dl frames channels value)
  rw [hs] at h1
  injection h1 with h1
  injection h1 with h1 _
  subst h1
  generalize (Matrix.calls dv cs (Matrix.init frames channels value)).1 = m at r
  have hmem : some l ∈ m.labels := by
    unfold Storage.findChannel at hl
    rw [r.shows.labels.find] at hl
    injection hl with hl
    have h1 := findIdx?_lt _ _ _ hl
    have h2 := findIdx?_label _ _ _ hl
    exact List.mem_of_getElem? h2
  obtain ⟨s', h2, r2⟩ := Storage.addChannel_throws r l v hmem
  have hcall : Storage.call dl dv (.op (.addChannel l v)) s = (s', .throws .assertion) := by
    simp only [Storage.call, h2]
  have hch : s'.channels = s.channels + 1 := by rw [r2.channels, r.channels]; simp
  rw [hcall]
  refine ⟨rfl, hch, ?_⟩
  intro xs hx
  have hlen : xs.length = s.channels := by
    rcases Nat.decEq xs.length s.channels with h | h
    · simp only [Storage.call, Storage.addFrameData, if_neg h, leftBy] at hx
      cases hx
    · exact h
  simp only [Storage.call, Storage.addFrameData]
  rw [if_neg (by omega)]
  rfl

/-- Writing by a new label before there is a frame throws, but leaves the channel. -/
theorem C148_label_refuted : ∃ s, Storage.call b!"" 0 (.putLabel b!"a" 1) (Storage.new b!"" 0 0 0) = (s, .throws .assertion) ∧
    s.channels = 1 ∧ s.findChannel b!"a" = .ok (some 0) := ⟨_, rfl, by decide +kernel, by decide +kernel⟩

/-- `add_channel` with values and a repeated label also leaves the frames it made for them, without the values. -/
theorem C148_values_refuted : ∃ s s', Storage.calls b!"" 0 [.op (.addChannelData b!"a" [1])] (Storage.new b!"" 0 0 0)
      = .ok (s, [none]) ∧
    Storage.call b!"" 0 (.op (.addChannelData b!"a" [7, 8, 9])) s = (s', .throws .assertion) ∧
    s.frames = 1 ∧ s'.frames = 3 ∧ s'.at' 2 0 = .ok 0 ∧ s'.at' 2 1 = .ok 0 :=
  ⟨_, _, rfl, rfl, by decide +kernel, by decide +kernel, by decide +kernel, by decide +kernel⟩

/-! ### Tables -/

/-- What a table is after any calls, whether they threw or not. -/
theorem C148_table {α L : Type} [DecidableEq L] (dl : L) (dv : α) (rows cols : Nat) (cs : List (Table.Op α L)) :
    ∃ t, Table.calls dl dv cs (Table.new dl dv rows cols) = .ok (t, (LMatrix.calls dv cs (LMatrix.init rows cols dv)).2) ∧
      TableShows dl t (LMatrix.calls dv cs (LMatrix.init rows cols dv)).1 := by
  obtain ⟨t, h, r⟩ := Table.rep_calls dv cs (Table.rep_new dl dv rows cols)
  exact ⟨t, h, r.shows⟩

/-- A call that throws loses nothing, and leaves the table exactly as it was unless it was to make a column. -/
theorem C148_table_keeps {α L : Type} [DecidableEq L] (dl : L) (dv : α) (rows cols : Nat) (cs : List (Table.Op α L))
    (t : Table α L) (es : List (Option Exn)) (ht : Table.calls dl dv cs (Table.new dl dv rows cols) = .ok (t, es))
    (c : Table.Op α L) (e : Exn) (he : (Table.call dl dv c t).2 = .throws e) :
    TableKeeps t (Table.call dl dv c t).1 ∧ ((∀ l v, c ≠ .addColumn l v) → (Table.call dl dv c t).1 = t) := by
  obtain ⟨t1, h1, r⟩ := Table.rep_calls dv cs (Table.rep_new dl dv rows cols)
  rw [ht] at h1
  injection h1 with h1
  injection h1 with h1 _
  subst h1
  generalize (LMatrix.calls dv cs (LMatrix.init rows cols dv)).1 = m at r
  have same : TableKeeps t t := ⟨rfl, by omega, fun _ _ _ h => h, fun _ _ h => h, fun _ _ => rfl⟩
  have lb : ∀ (x : Res (Table α L)), (leftBy t x).2 = .throws e → (leftBy t x).1 = t := by
    intro x
    cases x <;> simp [leftBy]
  cases c with
  | addRow l v =>
    have : (Table.call dl dv (.addRow l v) t).1 = t := lb _ he
    rw [this]
    exact ⟨same, fun _ => rfl⟩
  | put f c x =>
    have : (Table.call dl dv (.put f c x) t).1 = t := lb _ he
    rw [this]
    exact ⟨same, fun _ => rfl⟩
  | addColumn l v =>
    refine ⟨?_, fun h => absurd rfl (h l v)⟩
    obtain ⟨r', h2⟩ := Table.rep_call dv r (.addColumn l v)
    refine Table.keeps_of_rep r r' ?_ ?_ ?_
    · exact Table.addColumnLeft_rows dl dv l v t
    · simp only [LMatrix.call]
      split
      · exact ⟨[none], rfl, by simp⟩
      · exact ⟨[some l], rfl, by simp⟩
    · intro f hf
      simp only [LMatrix.call]
      refine ⟨[dv], ?_⟩
      split <;> simp [List.getElem?_eq_getElem hf]

/-- A program that goes on after three exceptions; the repeated column is there, without a label. -/
example : ∃ t, Table.calls b!"" 0 [.addRow b!"r" 1, .addColumn b!"a" 0, .addColumn b!"a" 0, .addRow b!"r" 2, .put 0 1 5, .put 1 0 5,
      .addColumn b!"b" 0] (Table.new b!"" 0 0 0)
    = .ok (t, [none, none, some .assertion, some .assertion, none, some .assertion, none]) ∧
    t.cols.size = 3 ∧ t.get 0 1 = .ok 5 ∧ t.cols.find b!"b" = .ok (some 2) :=
  ⟨_, rfl, by decide +kernel, by decide +kernel, by decide +kernel⟩

/-- A repeated column throws, but makes a column without a label. -/
theorem C148_column_refuted : ∃ t t', Table.calls b!"" 0 [.addRow b!"r" 1, .addColumn b!"a" 0] (Table.new b!"" 0 0 0)
      = .ok (t, [none, none]) ∧
    Table.call b!"" 0 (.addColumn b!"a" 0) t = (t', .throws .assertion) ∧ t.cols.size = 1 ∧ t'.cols.size = 2 ∧
    t'.cols.get 1 = .ok b!"" :=
  ⟨_, _, rfl, rfl, by decide +kernel, by decide +kernel, by decide +kernel⟩

end Flut
