import Verif.Proofs.DataRefs
import Verif.Proofs.Table
import Verif.Props.MapRefs

/-!
# C141: references to the values of a `storage` and of a `table`
-/

namespace Flut

open Spec

section Sto

open StorageRefs

variable {α L : Type} [DecidableEq L]

/-- C141. Whatever a program does with a `storage` and references to its values, what it reads is what it reads from a matrix with references to cells, it throws
when that does, and using a reference is undefined exactly when it is lost. -/
theorem C141_references (grow : Nat → Nat → Nat) (dl : L) (dv : α) (frames channels : Nat) (value : α) (ops : List (Op α L)) :
    Agree (fun p q => p.1 = q.1) ((StorageRefs.new dl frames channels value).run grow dl dv ops) ((Grid.init frames channels value).run grow dv ops) := by
  have h := (Shows.init dl frames channels value).run grow dv ops
  cases h1 : (StorageRefs.new dl frames channels value).run grow dl dv ops <;> cases h2 : (Grid.init frames channels value : Grid α L).run grow dv ops <;>
    rw [h1, h2] at h <;> first | exact h.1 | exact h

theorem StorageRefs.run_shows (grow : Nat → Nat → Nat) {dl : L} (dv : α) {x x' : StorageRefs α L} {g : Grid α L} (h : Shows dl x g) {ops : List (Op α L)} {as : List α}
    (h1 : x.run grow dl dv ops = .ok (as, x')) : ∃ g', g.run grow dv ops = .ok (as, g') ∧ Shows dl x' g' := by
  have h2 := h.run grow dv ops
  rw [h1] at h2
  cases h3 : g.run grow dv ops <;> rw [h3] at h2 <;> try exact h2.elim
  rename_i q
  obtain ⟨as', g'⟩ := q
  exact ⟨g', by rw [show as = as' from h2.1], h2.2⟩

theorem StorageRefs.step_shows (grow : Nat → Nat → Nat) {dl : L} (dv : α) {x x' : StorageRefs α L} {g : Grid α L} (h : Shows dl x g) {op : Op α L} {a : Option α}
    (h1 : x.step grow dl dv op = .ok (a, x')) : ∃ g', g.step grow dv op = .ok (a, g') ∧ Shows dl x' g' := by
  have h2 := h.step grow dv op
  rw [h1] at h2
  cases h3 : g.step grow dv op <;> rw [h3] at h2 <;> try exact h2.elim
  rename_i q
  obtain ⟨as', g'⟩ := q
  exact ⟨g', by rw [show a = as' from h2.1], h2.2⟩

/-- Steps that clear the storage, or make `h` another reference. -/
def Drops (h : Nat) : Op α L → Prop
  | .op .clear => True
  | .ref h' _ _ => h' = h
  | .refLabel h' _ => h' = h
  | _ => False

/-- From one matrix to a larger one. -/
structure Larger (h : Nat) (g g' : Grid α L) : Prop where
  rows : g.m.rows.length ≤ g'.m.rows.length
  cols : g.m.cols ≤ g'.m.cols
  keeps : g'.m.cols = g.m.cols ∨ g'.m.rows.length ≤ 1 → g'.m.rows.length * g'.m.cols ≤ g.room → g'.room = g.room ∧ g'.handle h = g.handle h

theorem Larger.refl (h : Nat) (g : Grid α L) : Larger h g g := ⟨Nat.le_refl _, Nat.le_refl _, fun _ _ => ⟨rfl, rfl⟩⟩

theorem Larger.trans {h : Nat} {g g' g'' : Grid α L} (h1 : Larger h g g') (h2 : Larger h g' g'') : Larger h g g'' := by
  refine ⟨Nat.le_trans h1.rows h2.rows, Nat.le_trans h1.cols h2.cols, fun hc hr => ?_⟩
  have e1 := h1.rows
  have e2 := h2.rows
  have e3 := h1.cols
  have e4 := h2.cols
  have e5 := Nat.mul_le_mul e2 e4
  obtain ⟨h3, h4⟩ := h1.keeps (by omega) (by omega)
  obtain ⟨h5, h6⟩ := h2.keeps (by omega) (by omega)
  exact ⟨by rw [h5, h3], by rw [h6, h4]⟩

theorem grown_larger (grow : Nat → Nat → Nat) (h : Nat) (g : Grid α L) (m' : Matrix α L) (hr : g.m.rows.length ≤ m'.rows.length) (hc : g.m.cols ≤ m'.cols) :
    Larger h g (g.grown grow m') := by
  unfold Grid.grown
  split
  · rename_i h1
    refine ⟨hr, hc, fun h2 _ => ?_⟩
    simp only at h2
    omega
  · split
    · exact ⟨hr, hc, fun _ _ => ⟨rfl, rfl⟩⟩
    · rename_i h2
      refine ⟨hr, hc, fun _ h3 => ?_⟩
      exact (h2 h3).elim

theorem column_larger (grow : Nat → Nat → Nat) (dv : α) (l : L) (h : Nat) (g : Grid α L) : Larger h g (g.column grow dv l).2 := by
  unfold Grid.column
  split
  · exact Larger.refl h g
  · exact grown_larger grow h g _ (by simp) (by simp [Matrix.cols])

theorem step_larger (grow : Nat → Nat → Nat) (dv : α) (h : Nat) (op : Op α L) (hop : ¬ Drops h op) {g g' : Grid α L} {a : Option α}
    (hs : g.step grow dv op = .ok (a, g')) : Larger h g g' := by
  cases op with
  | op o =>
    by_cases ho : o = .clear
    · subst ho
      exact (hop trivial).elim
    have e : g.step grow dv (.op o) = (do let m ← g.m.step dv o; .ok (none, g.grown grow m)) := by
      cases o <;> first | rfl | exact (ho rfl).elim
    rw [e] at hs
    obtain ⟨m, h1, h2⟩ := Res.bind_eq_ok.1 hs
    cases h2
    have h3 := StorageRefs.step_sizes dv o g.m m h1
    cases o <;> simp only at h3
    case clear => exact (ho rfl).elim
    all_goals exact grown_larger grow h g m (by omega) (by omega)
  | ref h' f c =>
    simp only [Grid.step] at hs
    split at hs <;> cases hs
    refine ⟨Nat.le_refl _, Nat.le_refl _, fun _ _ => ⟨rfl, ?_⟩⟩
    simp only
    rw [if_neg (fun e => hop e.symm)]
  | refLabel h' l =>
    simp only [Grid.step] at hs
    split at hs <;> cases hs
    have h1 := column_larger grow dv l h g
    refine ⟨h1.rows, h1.cols, fun h2 h3 => ?_⟩
    obtain ⟨h4, h5⟩ := h1.keeps h2 h3
    refine ⟨h4, ?_⟩
    simp only
    rw [if_neg (fun e => hop e.symm), h5]
  | load h' =>
    simp only [Grid.step] at hs
    split at hs
    · cases hs
    · split at hs <;> cases hs
      exact Larger.refl h g
  | store h' v =>
    simp only [Grid.step] at hs
    split at hs <;> cases hs
    exact ⟨by simp [Grid.write], by simp [Grid.write, Matrix.cols], fun _ _ => ⟨rfl, rfl⟩⟩
  | assignFrom rf l j =>
    have key : ∀ k : Nat × Nat, ∀ g2 : Grid α L, Larger h g g2 →
        (match g2.cell (g2.m.rows.length - 1) k.1 with
          | none => (.ub : Res (Option α × Grid α L))
          | some v => .ok (none, g2.write (g2.m.rows.length - 1) k.2 v)) = .ok (a, g') → Larger h g g' := by
      intro k g2 h1 h2
      split at h2 <;> cases h2
      refine ⟨by simpa [Grid.write] using h1.rows, by simpa [Grid.write, Matrix.cols] using h1.cols, fun h2 h3 => ?_⟩
      simp only [Grid.write, Matrix.cols, List.length_modify] at h2 h3 ⊢
      exact h1.keeps h2 h3
    have h1 := (column_larger grow dv (if rf then j else l) h g).trans
      (column_larger grow dv (if rf then l else j) h (g.column grow dv (if rf then j else l)).2)
    simp only [Grid.step] at hs
    by_cases hne : g.m.rows = []
    · rw [if_pos hne] at hs
      cases hs
    · rw [if_neg hne] at hs
      cases rf <;> simp only [if_true, if_false, Bool.false_eq_true] at hs h1 <;> split at hs <;> try cases hs
      · exact key (_, _) _ h1 hs
      · exact key (_, _) _ h1 hs

theorem run_larger (grow : Nat → Nat → Nat) (dv : α) (h : Nat) (ops : List (Op α L)) : ∀ {g g' : Grid α L} {as : List α},
    (∀ op ∈ ops, ¬ Drops h op) → g.run grow dv ops = .ok (as, g') → Larger h g g' := by
  induction ops with
  | nil => intro g g' as _ h1; cases h1; exact Larger.refl h _
  | cons op ops ih =>
    intro d d' as hops h1
    rw [Grid.run] at h1
    obtain ⟨⟨x, d1⟩, h2, h3⟩ := Res.bind_eq_ok.1 h1
    obtain ⟨⟨y, d2⟩, h4, h5⟩ := Res.bind_eq_ok.1 h3
    cases h5
    exact (step_larger grow dv h op (hops op (by simp)) h2).trans (ih (fun o ho => hops o (by simp [ho])) h4)

/-- C141. A reference to the value in a frame and channel can be used, and reads and writes that value, until the storage is cleared, a channel is added to more than one frame, or there is more
data than the vector had room for when the reference was made; in particular until a frame or channel is added. -/
theorem C141_stays (grow : Nat → Nat → Nat) (dl : L) (dv : α) (frames channels : Nat) (value : α) (pre ops : List (Op α L)) (h f c : Nat) (as bs : List α)
    (x0 x1 x : StorageRefs α L) (h0 : (StorageRefs.new dl frames channels value).run grow dl dv pre = .ok (as, x0))
    (href : x0.step grow dl dv (.ref h f c) = .ok (none, x1)) (h1 : x1.run grow dl dv ops = .ok (bs, x)) (hops : ∀ op ∈ ops, ¬ Drops h op)
    (hcols : x.sto.channels = x0.sto.channels ∨ x.sto.frames ≤ 1) (hcap : x.sto.data.length ≤ x0.slots.cap) :
    (∃ v, x.step grow dl dv (.load h) = .ok (some v, x) ∧ x.sto.at' f c = .ok v) ∧
    ∀ v, ∃ x', x.step grow dl dv (.store h v) = .ok (none, x') ∧ x.sto.putAt f c v = .ok x'.sto := by
  obtain ⟨g0, -, s0⟩ := run_shows grow dv (Shows.init dl frames channels value) h0
  obtain ⟨g1, e1, s1⟩ := step_shows grow dv s0 href
  obtain ⟨g, e2, s⟩ := run_shows grow dv s1 h1
  have hl := run_larger grow dv h ops hops e2
  simp only [Grid.step] at e1
  split at e1 <;> cases e1
  obtain ⟨-, hh⟩ := hl.keeps (by
      rw [s.rep.channels, s0.rep.channels, s.rep.frames] at hcols
      exact hcols) (by
      rw [s.rep.dataLength, s0.cap] at hcap
      exact hcap)
  replace hh : g.handle h = some (f, c) := by rw [hh]; simp
  obtain ⟨hf, hc, r, h3, h4, h5⟩ := s.live h f c hh
  obtain ⟨v, h6, h7⟩ := s.load r h4 f c hf hc h5
  have hin : f < x.sto.frames ∧ c < x.sto.channels := by rw [s.rep.frames, s.rep.channels]; exact ⟨hf, hc⟩
  refine ⟨⟨v, ?_, ?_⟩, fun w => ?_⟩
  · simp only [StorageRefs.step, h3, h6, Res.bind_ok]
  · rw [Storage.at', if_pos hin]
    rw [StorageRefs.load, if_pos h4, h5] at h6
    rw [s.rep.channels]
    exact h6
  · obtain ⟨x', h8, -⟩ := s.store r h4 f c hf hc h5 w
    refine ⟨x', by simp only [StorageRefs.step, h3, h8, Res.bind_ok], ?_⟩
    rw [StorageRefs.store, if_pos h4, h5] at h8
    obtain ⟨d, h9, h10⟩ := Res.bind_eq_ok.1 h8
    cases h10
    rw [Storage.putAt, if_pos hin, Storage.put, s.rep.channels]
    change vset x.sto.data (f * g.m.cols + c) w >>= _ = _
    rw [h9]
    rfl

/-- C141. `sto[ l ] = sto[ j ]` copies the value in the last frame if there are both channels, whichever side is evaluated first. -/
theorem C141_assign (grow : Nat → Nat → Nat) (dl : L) (dv : α) (frames channels : Nat) (value : α) (pre : List (Op α L)) (as : List α) (x : StorageRefs α L)
    (h0 : (StorageRefs.new dl frames channels value).run grow dl dv pre = .ok (as, x)) (rightFirst : Bool) (l j : L) (cl cj : Nat) (hpos : 0 < x.sto.frames)
    (hl : x.sto.findChannel l = .ok (some cl)) (hj : x.sto.findChannel j = .ok (some cj)) :
    ∃ v x', x.sto.at' (x.sto.frames - 1) cj = .ok v ∧ x.step grow dl dv (.assignFrom rightFirst l j) = .ok (none, x') ∧
      x.sto.putAt (x.sto.frames - 1) cl v = .ok x'.sto := by
  obtain ⟨g, -, s⟩ := run_shows grow dv (Shows.init dl frames channels value) h0
  have hfind : ∀ l, x.sto.findChannel l = .ok (g.m.labels.findIdx? (· = some l)) := fun l => s.rep.labels.shows.find l
  rw [hfind] at hl hj
  injection hl with hl
  injection hj with hj
  have hlt : ∀ l c, g.m.labels.findIdx? (· = some l) = some c → c < g.m.cols := by
    intro l c h
    have := List.findIdx?_eq_some_iff_findIdx_eq.1 h
    exact this.1
  have hcl := hlt l cl hl
  have hcj := hlt j cj hj
  have hne : g.m.rows ≠ [] := by
    intro h
    rw [s.rep.frames, h] at hpos
    simp at hpos
  have hp : 0 < g.m.rows.length := List.length_pos_iff.2 hne
  have el : g.column grow dv l = (cl, g) := by simp only [Grid.column, hl]
  have ej : g.column grow dv j = (cj, g) := by simp only [Grid.column, hj]
  have hml : ∀ l c, g.m.labels.findIdx? (· = some l) = some c → g.Steady l := by
    intro l c h
    left
    refine Decidable.byContradiction fun hc => ?_
    rw [(Header.findIdx?_eq_none _ _).2 hc] at h
    cases h
  -- the value
  obtain ⟨v, h1, h2⟩ := s.rep.get (g.m.rows.length - 1) cj (by omega) hcj
  have hat : x.sto.at' (x.sto.frames - 1) cj = .ok v := by
    rw [Storage.at', if_pos ⟨by omega, by rw [s.rep.channels]; exact hcj⟩, s.rep.frames]
    exact h2
  -- what the code does
  obtain ⟨-, hbl⟩ := s.byLabel grow dv l
  obtain ⟨-, hbj⟩ := s.byLabel grow dv j
  rw [el] at hbl
  rw [ej] at hbj
  have stay : ∀ l c, g.m.labels.findIdx? (· = some l) = some c → x.byLabel grow dl dv l = .ok (x.slots.ref ((g.m.rows.length - 1) * g.m.cols + c), x) := by
    intro l c hi
    have e := (Storage.rep_findOrAdd s.rep l dv).1 c hi
    have h5 : x.sto.data.isEmpty = false := by
      rw [List.isEmpty_eq_false_iff]
      intro h2
      have hlen := s.rep.dataLength
      rw [h2] at hlen
      have := Nat.mul_pos hp (show 0 < g.m.labels.length from Nat.lt_of_le_of_lt (Nat.zero_le _) (hlt l c hi))
      simp at hlen
      omega
    simp only [StorageRefs.byLabel, hfind, hi, Res.bind_ok, e, h5, Bool.false_eq_true, if_false, s.rep.frames, s.rep.channels]
    rw [if_neg (by omega)]
    simp [Matrix.cols]
  have hload : x.load (x.slots.ref ((g.m.rows.length - 1) * g.m.cols + cj)) = .ok v := by
    rw [StorageRefs.load, if_pos (MapRefs.valid_ref _ _), ← h2, Storage.get, s.rep.channels]
    rfl
  obtain ⟨x', h3, -⟩ := s.store (x.slots.ref ((g.m.rows.length - 1) * g.m.cols + cl)) (MapRefs.valid_ref _ _) (g.m.rows.length - 1) cl (by omega) hcl rfl v
  refine ⟨v, x', hat, ?_, ?_⟩
  · cases rightFirst <;>
      simp only [StorageRefs.step, if_true, Bool.false_eq_true, if_false, stay l cl hl, stay j cj hj, Res.bind_ok, hload, h3]
  · rw [StorageRefs.store, if_pos (MapRefs.valid_ref _ _)] at h3
    obtain ⟨d, h9, h10⟩ := Res.bind_eq_ok.1 h3
    cases h10
    change vset x.sto.data ((g.m.rows.length - 1) * g.m.cols + cl) v = _ at h9
    rw [← s.rep.frames, show g.m.cols = x.sto.channels from s.rep.channels.symm] at h9
    rw [Storage.putAt, if_pos ⟨by omega, by rw [s.rep.channels]; exact hcl⟩, Storage.put, h9]
    rfl

/-- C141 fails for adding a channel: if there is more than one frame, no reference survives it. -/
theorem C141_add_channel_refuted (grow : Nat → Nat → Nat) (dl : L) (dv : α) (frames channels : Nat) (value : α) (pre : List (Op α L)) (as : List α) (x x' : StorageRefs α L)
    (h0 : (StorageRefs.new dl frames channels value).run grow dl dv pre = .ok (as, x)) (h2 : 2 ≤ x.sto.frames) (l : L) (v : α)
    (h1 : x.step grow dl dv (.op (.addChannel l v)) = .ok (none, x')) (h : Nat) : x'.step grow dl dv (.load h) = .ub := by
  obtain ⟨g, -, s⟩ := run_shows grow dv (Shows.init dl frames channels value) h0
  obtain ⟨g', e, s'⟩ := step_shows grow dv s h1
  simp only [Grid.step] at e
  obtain ⟨m, e1, e2⟩ := Res.bind_eq_ok.1 e
  cases e2
  have e3 := StorageRefs.step_sizes dv (.addChannel l v) g.m m e1
  have hh : (g.grown grow m).handle h = none := by
    rw [Grid.grown, if_pos ⟨by omega, by rw [← s.rep.frames]; omega⟩]
  have := s'.step grow dv (.load h)
  simp only [Grid.step, hh] at this
  cases h5 : x'.step grow dl dv (.load h) <;> rw [h5] at this <;> first | rfl | exact this.elim

/-- C141 fails for `sto[ l ] = sto[ j ]` where one of the channels is new and there is more than one frame: in one of the two orders of evaluation it is undefined. -/
theorem C141_assign_refuted (grow : Nat → Nat → Nat) (dl : L) (dv : α) (frames channels : Nat) (value : α) (pre : List (Op α L)) (as : List α) (x : StorageRefs α L)
    (h0 : (StorageRefs.new dl frames channels value).run grow dl dv pre = .ok (as, x)) (h2 : 2 ≤ x.sto.frames) (l j : L) (rightFirst : Bool) (c : Nat)
    (hold : x.sto.findChannel (if rightFirst then j else l) = .ok (some c)) (hnew : x.sto.findChannel (if rightFirst then l else j) = .ok none) :
    x.step grow dl dv (.assignFrom rightFirst l j) = .ub := by
  obtain ⟨g, -, s⟩ := run_shows grow dv (Shows.init dl frames channels value) h0
  have hfind : ∀ l, x.sto.findChannel l = .ok (g.m.labels.findIdx? (· = some l)) := fun l => s.rep.labels.shows.find l
  rw [hfind] at hold hnew
  injection hold with hold
  injection hnew with hnew
  have hne : g.m.rows ≠ [] := by
    intro h
    rw [s.rep.frames, h] at h2
    simp at h2
  have eo : g.column grow dv (if rightFirst then j else l) = (c, g) := by simp only [Grid.column, hold]
  have hs : ¬ g.Steady (if rightFirst then l else j) := by
    rintro (h | h)
    · exact (Header.findIdx?_eq_none _ _).1 hnew h
    · rw [s.rep.frames] at h2
      omega
  have := s.step grow dv (.assignFrom rightFirst l j)
  simp only [Grid.step, if_neg hne, eo, if_neg hs] at this
  cases h5 : x.step grow dl dv (.assignFrom rightFirst l j) <;> rw [h5] at this <;> first | rfl | exact this.elim

/-! ### A storage that is given its own data -/

theorem copyWithin_ub (n : Nat) : ∀ (i j : Nat) (d : List α), i ≤ j → j ≤ d.length → d.length < j + n → Storage.copyWithin n i j d = .ub := by
  induction n with
  | zero => intro i j d _ _ h; omega
  | succ n ih =>
    intro i j d h1 h2 h3
    rw [Storage.copyWithin]
    by_cases hj : j < d.length
    · have hi : i < d.length := by omega
      simp only [vget, List.getElem?_eq_getElem hi, Res.bind_ok, vset, if_pos hj]
      exact ih _ _ _ (by omega) (by rw [List.length_set]; omega) (by rw [List.length_set]; omega)
    · simp only [vset, if_neg hj, vget]
      cases d[i]? <;> rfl

/-- C141 fails for `sto.add_frame( sto.data() )`: it is undefined if there is one frame and some channel. -/
theorem C141_own_frame_refuted (grow : Nat → Nat → Nat) (dl : L) (dv : α) (frames channels : Nat) (value : α) (pre : List (Op α L)) (as : List α) (x : StorageRefs α L)
    (h0 : (StorageRefs.new dl frames channels value).run grow dl dv pre = .ok (as, x)) (h1 : x.sto.frames = 1) (hc : 0 < x.sto.channels) :
    x.sto.addFrameOwn dv = .ub := by
  obtain ⟨g, -, s⟩ := run_shows grow dv (Shows.init dl frames channels value) h0
  have hlen := s.rep.dataLength
  rw [s.rep.frames] at h1
  rw [h1, Nat.one_mul] at hlen
  have hch := s.rep.channels
  rw [Storage.addFrameOwn, if_pos (by rw [hlen, hch])]
  have hl2 : (vresize x.sto.data (x.sto.data.length + x.sto.channels) dv).length = x.sto.data.length + x.sto.channels := by
    rw [vresize_grow _ _ _ (by omega)]
    simp
  simp only [hl2]
  rw [copyWithin_ub _ _ _ _ (Nat.zero_le _) (by omega) (by omega)]
  rfl

theorem putColumnOwn_ub (cidx : Nat) (n : Nat) : ∀ (fidx : Nat) (s : Storage α L), s.data.length = s.frames * s.channels → cidx < s.channels → fidx ≤ s.frames →
    s.frames < fidx + n → Storage.putColumnOwn cidx n fidx s = .ub := by
  induction n with
  | zero => intro fidx s _ _ _ h; omega
  | succ n ih =>
    intro fidx s h1 h2 h3 h4
    rw [Storage.putColumnOwn]
    by_cases hf : fidx < s.frames
    · have hle : s.frames * 1 ≤ s.frames * s.channels := Nat.mul_le_mul_left _ (by omega)
      have hi : fidx < s.data.length := by omega
      have hj : fidx * s.channels + cidx < s.data.length := by
        have : (fidx + 1) * s.channels ≤ s.frames * s.channels := Nat.mul_le_mul_right _ hf
        rw [Nat.succ_mul] at this
        omega
      simp only [vget, List.getElem?_eq_getElem hi, Res.bind_ok, Storage.put, vset, if_pos hj]
      exact ih _ _ (by rw [List.length_set]; exact h1) h2 hf (by simp only; omega)
    · have : fidx = s.frames := by omega
      subst this
      have hj : ¬ s.frames * s.channels + cidx < s.data.length := by omega
      simp only [vget, Storage.put, vset, if_neg hj]
      cases s.data[s.frames]? <;> rfl

/-- C141 fails for `sto.add_channel( label, sto.data() )`: it is undefined for a new label whenever there is a value. -/
theorem C141_own_channel_refuted (grow : Nat → Nat → Nat) (dl : L) (dv : α) (frames channels : Nat) (value : α) (pre : List (Op α L)) (as : List α) (x : StorageRefs α L)
    (h0 : (StorageRefs.new dl frames channels value).run grow dl dv pre = .ok (as, x)) (hne : x.sto.data ≠ []) (l : L)
    (hnew : x.sto.findChannel l = .ok none) : x.sto.addChannelOwn dl dv l = .ub := by
  obtain ⟨g, -, s⟩ := run_shows grow dv (Shows.init dl frames channels value) h0
  rw [show x.sto.findChannel l = .ok (g.m.labels.findIdx? (· = some l)) from s.rep.labels.shows.find l] at hnew
  injection hnew with hnew
  have hl : some l ∉ g.m.labels := (Header.findIdx?_eq_none _ _).1 hnew
  have hpos := List.length_pos_iff.2 hne
  have hlen := s.rep.dataLength
  have hf := s.rep.frames
  have hch := s.rep.channels
  obtain ⟨s1, e1, r1⟩ := Storage.rep_resize s.rep (max x.sto.frames x.sto.data.length) (x.sto.channels + 1) dv (by omega) (by omega)
  have hn : x.sto.channels + 1 - g.m.labels.length = 1 := by rw [hch]; omega
  rw [hn] at r1
  obtain ⟨h', e2, r2⟩ := Header.rep_set_last r1.labels l hl
  have hc1 : s1.channels = x.sto.channels + 1 := by
    rw [r1.channels, hch]
    simp
  have hf1 : s1.frames = max x.sto.frames x.sto.data.length := by
    rw [r1.frames]
    simp
    omega
  have hd1 := r1.dataLength
  rw [← r1.frames] at hd1
  rw [← r1.channels, hc1] at hd1
  rw [Storage.addChannelOwn, e1]
  simp only [Res.bind_ok]
  rw [show s1.channels - 1 = g.m.labels.length from by rw [hc1, hch]; omega, e2]
  simp only [Res.bind_ok]
  have hs : ({ s1 with labels := h' } : Storage α L).channels = x.sto.channels + 1 := by
    have := r2.size
    simp only [List.length_append, List.length_cons, List.length_nil] at this
    rw [hch]
    exact this
  refine putColumnOwn_ub _ _ 0 _ (by rw [hs]; exact hd1) (by omega) (Nat.zero_le _) ?_
  simp only [Nat.zero_add, hd1]
  have h3 : 0 < x.sto.channels := by
    refine Nat.pos_of_ne_zero fun h => ?_
    rw [hlen, ← hch, h] at hpos
    simp at hpos
  have h4 : 0 < s1.frames := by omega
  have h5 : s1.frames * 2 ≤ s1.frames * (x.sto.channels + 1) := Nat.mul_le_mul_left _ (by omega)
  omega

end Sto

section Tab

open TableRefs

variable {α L : Type} [DecidableEq L]

theorem tableRep {dl : L} {dv : α} {rows cols : Nat} {pre : List (Table.Op α L)} {t : Table α L} (hpre : ∀ l v, .addColumn l v ∈ pre → v = dv)
    (h0 : Table.runAll dl dv pre (Table.new dl dv rows cols) = .ok t) : ∃ m, Table.Rep dl t m := by
  have := Table.rep_runAll dv pre (Table.rep_new dl dv rows cols) hpre
  rw [h0] at this
  cases h : LMatrix.run pre (LMatrix.init rows cols dv) <;> rw [h] at this <;> first | exact this.elim | exact ⟨_, this⟩

/-- Steps of a table that add a column, or make `h` another reference. -/
def Shifts (h : Nat) : TableRefs.Op α L → Prop
  | .op (.addColumn _ _) => True
  | .ref h' _ _ => h' = h
  | _ => False

theorem Table.run_sizes (dl : L) (dv : α) (o : Table.Op α L) (ho : ∀ l v, o ≠ .addColumn l v) {t t' : Table α L} {m : LMatrix α L} (r : Table.Rep dl t m)
    (h : t.run dl dv o = .ok t') : (∃ m', Table.Rep dl t' m') ∧ t'.cols.size = t.cols.size ∧
      t'.rows.size = t.rows.size + (match o with | .addRow _ _ => 1 | _ => 0) := by
  have h1 := Table.rep_run dv r o (fun l v e => (ho l v e).elim)
  rw [h] at h1
  cases h2 : m.step o <;> rw [h2] at h1 <;> try exact h1.elim
  rename_i m'
  have h1 : Table.Rep dl t' m' := h1
  refine ⟨⟨m', h1⟩, ?_⟩
  rw [h1.colLabels.size, h1.rowLabels.size, r.colLabels.size, r.rowLabels.size]
  cases o with
  | addColumn l v => exact (ho l v rfl).elim
  | addRow l v =>
    simp only [LMatrix.step] at h2
    split at h2 <;> cases h2
    simp
  | put f c v =>
    simp only [LMatrix.step] at h2
    split at h2 <;> cases h2
    simp

/-- A step that adds no column: the reference stays if there is room. -/
structure TabLarger (dl : L) (h : Nat) (x x' : TableRefs α L) : Prop where
  rep : ∃ m, Table.Rep dl x'.tab m
  rows : x.tab.rows.size ≤ x'.tab.rows.size
  cols : x'.tab.cols.size = x.tab.cols.size
  keeps : x'.tab.rows.size * x.tab.cols.size ≤ x.slots.cap → x'.slots = x.slots ∧ x'.handle h = x.handle h

theorem TabLarger.trans {dl : L} {h : Nat} {x x' x'' : TableRefs α L} (h1 : TabLarger dl h x x') (h2 : TabLarger dl h x' x'') : TabLarger dl h x x'' := by
  refine ⟨h2.rep, Nat.le_trans h1.rows h2.rows, by rw [h2.cols, h1.cols], fun hr => ?_⟩
  have e := Nat.mul_le_mul_right x.tab.cols.size h2.rows
  obtain ⟨h3, h4⟩ := h1.keeps (by omega)
  obtain ⟨h5, h6⟩ := h2.keeps (by rw [h1.cols, h3]; exact hr)
  exact ⟨by rw [h5, h3], by rw [h6, h4]⟩

theorem tab_step_larger (grow : Nat → Nat → Nat) (dl : L) (dv : α) (h : Nat) (op : TableRefs.Op α L) (hop : ¬ Shifts h op) {x x' : TableRefs α L} {a : Option α}
    {m : LMatrix α L} (r : Table.Rep dl x.tab m) (hs : x.step grow dl dv op = .ok (a, x')) : TabLarger dl h x x' := by
  cases op with
  | op o =>
    simp only [TableRefs.step] at hs
    obtain ⟨t, h1, h2⟩ := Res.bind_eq_ok.1 hs
    cases h2
    obtain ⟨h3, h4, h5⟩ := Table.run_sizes dl dv o (fun l v e => hop (by subst e; trivial)) r h1
    refine ⟨h3, by simp only; omega, h4, fun h6 => ⟨?_, rfl⟩⟩
    simp only at h6 ⊢
    cases o with
    | addColumn l v => exact (hop trivial).elim
    | addRow l v =>
      simp only at h5
      rw [h5] at h6
      rw [slotsAfter, Slots.room, if_pos h6]
    | put f c v => rfl
  | ref h' f c =>
    simp only [TableRefs.step] at hs
    split at hs <;> cases hs
    refine ⟨⟨m, r⟩, Nat.le_refl _, rfl, fun _ => ⟨rfl, ?_⟩⟩
    simp only
    rw [if_neg (fun e => hop e.symm)]
  | load h' =>
    simp only [TableRefs.step] at hs
    split at hs
    · cases hs
    · obtain ⟨v, -, h2⟩ := Res.bind_eq_ok.1 hs
      cases h2
      exact ⟨⟨m, r⟩, Nat.le_refl _, rfl, fun _ => ⟨rfl, rfl⟩⟩
  | store h' v =>
    simp only [TableRefs.step] at hs
    split at hs
    · cases hs
    · rename_i q _
      obtain ⟨y, h1, h2⟩ := Res.bind_eq_ok.1 hs
      cases h2
      rw [TableRefs.store] at h1
      split at h1
      · obtain ⟨d, h3, h4⟩ := Res.bind_eq_ok.1 h1
        cases h4
        refine ⟨?_, Nat.le_refl _, rfl, fun _ => ⟨rfl, rfl⟩⟩
        -- a write somewhere in the data is a write to some cell
        have hlen := r.dataLength
        rw [vset] at h3
        split at h3
        · rename_i hi
          cases h3
          have hpos : 0 < m.colLabels.length := by
            refine Nat.pos_of_ne_zero fun h => ?_
            rw [hlen, h] at hi
            simp at hi
          have hc := Nat.mod_lt q.idx hpos
          have hf : q.idx / m.colLabels.length < m.rows.length := Nat.div_lt_of_lt_mul (by rw [Nat.mul_comm]; omega)
          obtain ⟨t', e, r'⟩ := Table.rep_put r _ _ v hf hc
          rw [Table.put, if_pos ⟨by rw [r.rowLabels.size, ← r.rows]; exact hf, by rw [r.colLabels.size]; exact hc⟩] at e
          rw [r.colLabels.size, Nat.mul_comm, Nat.div_add_mod, vset, if_pos hi] at e
          injection e with e
          subst e
          exact ⟨_, r'⟩
        · cases h3
      · cases h1

theorem tab_run_larger (grow : Nat → Nat → Nat) (dl : L) (dv : α) (h : Nat) (ops : List (TableRefs.Op α L)) : ∀ {x x' : TableRefs α L} {as : List α} {m : LMatrix α L},
    Table.Rep dl x.tab m → (∀ op ∈ ops, ¬ Shifts h op) → x.run grow dl dv ops = .ok (as, x') → TabLarger dl h x x' := by
  induction ops with
  | nil => intro x x' as m r _ h1; cases h1; exact ⟨⟨m, r⟩, Nat.le_refl _, rfl, fun _ => ⟨rfl, rfl⟩⟩
  | cons op ops ih =>
    intro x x' as m r hops h1
    rw [TableRefs.run] at h1
    obtain ⟨⟨a, x1⟩, h2, h3⟩ := Res.bind_eq_ok.1 h1
    obtain ⟨⟨y, x2⟩, h4, h5⟩ := Res.bind_eq_ok.1 h3
    cases h5
    have hl := tab_step_larger grow dl dv h op (hops op (by simp)) r h2
    obtain ⟨m1, r1⟩ := hl.rep
    exact hl.trans (ih r1 (fun o ho => hops o (by simp [ho])) h4)

/-- C141. A reference to the value in a row and column of a table can be used, and reads and writes that value, until a column is added or there are more values than
the vector had room for when the reference was made. -/
theorem C141_table (grow : Nat → Nat → Nat) (dl : L) (dv : α) (rows cols : Nat) (pre : List (Table.Op α L)) (hpre : ∀ l v, .addColumn l v ∈ pre → v = dv)
    (ops : List (TableRefs.Op α L)) (h r c : Nat) (bs : List α) (x0 x1 x : TableRefs α L) (h0 : Table.runAll dl dv pre (Table.new dl dv rows cols) = .ok x0.tab)
    (href : x0.step grow dl dv (.ref h r c) = .ok (none, x1)) (h1 : x1.run grow dl dv ops = .ok (bs, x)) (hops : ∀ op ∈ ops, ¬ Shifts h op)
    (hcap : x.tab.data.length ≤ x0.slots.cap) :
    (∃ v, x.step grow dl dv (.load h) = .ok (some v, x) ∧ x.tab.get r c = .ok v) ∧
    ∀ v, ∃ x', x.step grow dl dv (.store h v) = .ok (none, x') ∧ x.tab.put r c v = .ok x'.tab := by
  obtain ⟨m, rep⟩ := tableRep hpre h0
  simp only [TableRefs.step] at href
  split at href <;> cases href
  rename_i hin
  have hl := tab_run_larger grow dl dv h ops (x := { x0 with handle := fun h' => if h' = h then some (x0.slots.ref (r * x0.tab.cols.size + c)) else x0.handle h' })
    (m := m) rep hops h1
  obtain ⟨m', rep'⟩ := hl.rep
  have hrows := hl.rows
  have hcols := hl.cols
  simp only at hrows hcols
  have hsz : x.tab.data.length = x.tab.rows.size * x.tab.cols.size := by
    rw [rep'.dataLength, rep'.rows, rep'.rowLabels.size, rep'.colLabels.size]
  obtain ⟨h2, h3⟩ := hl.keeps (by
    change x.tab.rows.size * x0.tab.cols.size ≤ x0.slots.cap
    rw [← hcols, ← hsz]
    exact hcap)
  replace h2 : x.slots = x0.slots := h2
  replace h3 : x.handle h = some (x0.slots.ref (r * x0.tab.cols.size + c)) := by rw [h3]; simp
  have hin' : r < x.tab.rows.size ∧ c < x.tab.cols.size := ⟨by omega, by omega⟩
  obtain ⟨v, -, h5⟩ := rep'.shows.cell r c (by rw [rep'.rows, ← rep'.rowLabels.size]; exact hin'.1) (by rw [← rep'.colLabels.size]; exact hin'.2)
  have hb : r * x.tab.cols.size + c < x.tab.data.length := by
    rw [hsz]
    exact flat_bound _ _ _ _ hin'.1 hin'.2
  refine ⟨⟨v, ?_, h5⟩, fun w => ?_⟩
  · rw [Table.get, if_pos hin', hcols] at h5
    simp only [TableRefs.step, h3, TableRefs.load, h2, MapRefs.valid_ref, if_true]
    simp only [Slots.ref, h5, Res.bind_ok]
  · refine ⟨{ x with tab := { x.tab with data := x.tab.data.set (r * x.tab.cols.size + c) w } }, ?_, ?_⟩
    · simp only [TableRefs.step, h3, TableRefs.store, h2, MapRefs.valid_ref, if_true]
      simp only [Slots.ref, ← hcols, vset, if_pos hb, Res.bind_ok]
    · rw [Table.put, if_pos hin', vset, if_pos hb]
      rfl

/-- C141 fails for adding a column to a table: if the vector has room for it, a reference to a value that is not in the first row can still be used, but is then one
to a value in another place. -/
theorem C141_table_refuted (grow : Nat → Nat → Nat) (dl : L) (dv : α) (rows cols : Nat) (pre : List (Table.Op α L)) (hpre : ∀ l v, .addColumn l v ∈ pre → v = dv)
    (h r c : Nat) (x0 x1 x : TableRefs α L) (h0 : Table.runAll dl dv pre (Table.new dl dv rows cols) = .ok x0.tab)
    (href : x0.step grow dl dv (.ref h r c) = .ok (none, x1)) (l : L) (v : α) (h1 : x1.step grow dl dv (.op (.addColumn l v)) = .ok (none, x)) (hr : 0 < r)
    (hcap : x.tab.data.length ≤ x0.slots.cap) :
    ∃ r' c' w, (r', c') ≠ (r, c) ∧ x.tab.get r' c' = .ok w ∧ x.step grow dl dv (.load h) = .ok (some w, x) ∧
      ∀ u, ∃ x', x.step grow dl dv (.store h u) = .ok (none, x') ∧ x.tab.put r' c' u = .ok x'.tab := by
  obtain ⟨m, rep⟩ := tableRep hpre h0
  simp only [TableRefs.step] at href
  split at href <;> cases href
  rename_i hin
  simp only [TableRefs.step] at h1
  obtain ⟨t, h2, h3⟩ := Res.bind_eq_ok.1 h1
  cases h3
  simp only [Table.run] at h2
  obtain ⟨⟨i, t'⟩, h4, h5⟩ := Res.bind_eq_ok.1 h2
  cases h5
  by_cases hl : some l ∈ m.colLabels
  · rw [Table.addColumn_throws dv rep l v hl] at h4
    cases h4
  obtain ⟨t2, h6, rep2⟩ := Table.rep_addColumn dv rep l v hl
  rw [h6] at h4
  injection h4 with h4
  injection h4 with _ h4
  subst h4
  have hr0 := rep.rowLabels.size
  have hc0 := rep.colLabels.size
  have hr2 := rep2.rowLabels.size
  have hc2 := rep2.colLabels.size
  simp only [List.length_append, List.length_cons, List.length_nil] at hr2 hc2
  have hd := rep2.dataLength
  simp only [List.length_map, List.length_append, List.length_cons, List.length_nil, rep.rows] at hd
  simp only at hcap
  have hslots : TableRefs.slotsAfter grow { x0 with handle := fun h' => if h' = h then some (x0.slots.ref (r * x0.tab.cols.size + c)) else x0.handle h' }
      (.addColumn l v) = x0.slots := by
    rw [slotsAfter, Slots.room, if_pos]
    simp only
    rw [hr0, hc0, ← hd]
    exact hcap
  rw [hslots]
  obtain ⟨C, hC⟩ : ∃ C, C = m.colLabels.length := ⟨_, rfl⟩
  rw [← hC] at hc0 hc2 hd
  have hidx : r * C + c < m.rowLabels.length * (C + 1) := by
    have e1 : (r + 1) * (C + 1) ≤ m.rowLabels.length * (C + 1) := Nat.mul_le_mul_right _ (by omega)
    rw [Nat.succ_mul, Nat.mul_succ] at e1
    omega
  have e1 := Nat.div_add_mod (r * C + c) (C + 1)
  have e2 := Nat.mod_lt (r * C + c) (show 0 < C + 1 by omega)
  have e3 : (r * C + c) / (C + 1) < m.rowLabels.length := Nat.div_lt_of_lt_mul (by rw [Nat.mul_comm (C + 1)]; exact hidx)
  rw [Nat.mul_comm] at e1
  have hin2 : (r * C + c) / (C + 1) < t2.rows.size ∧ (r * C + c) % (C + 1) < t2.cols.size := ⟨by omega, by omega⟩
  have hb : r * C + c < t2.data.length := by rw [hd]; exact hidx
  refine ⟨(r * C + c) / (C + 1), (r * C + c) % (C + 1), t2.data[r * C + c], ?_, ?_, ?_, fun u => ?_⟩
  · intro e
    injection e with e4 e5
    rw [e4, e5, Nat.mul_succ] at e1
    omega
  · rw [Table.get, if_pos hin2, hc2, e1, vget, List.getElem?_eq_getElem hb]
  · simp only [TableRefs.step, if_true, TableRefs.load, hc0, MapRefs.valid_ref]
    simp only [Slots.ref, vget, List.getElem?_eq_getElem hb, Res.bind_ok]
  · refine ⟨⟨{ t2 with data := t2.data.set (r * C + c) u }, x0.slots,
      fun h' => if h' = h then some (x0.slots.ref (r * C + c)) else x0.handle h'⟩, ?_, ?_⟩
    rotate_left
    · rw [Table.put, if_pos hin2, hc2, e1, vset, if_pos hb]
      rfl
    · simp only [TableRefs.step, if_true, TableRefs.store, hc0, MapRefs.valid_ref]
      have hv : vset t2.data (r * C + c) u = .ok (t2.data.set (r * C + c) u) := by rw [vset, if_pos hb]
      change (vset t2.data (r * C + c) u >>= _) >>= _ = _
      rw [hv]
      rfl

end Tab

/-! ### Examples -/

section Examples

/-- What was read. -/
def reads {α β : Type} : Res (List α × β) → Res (List α)
  | .ok p => .ok p.1
  | .throws e => .throws e
  | .ub => .ub
  | .diverges => .diverges

/-- A reference made after there is room survives another frame, -/
example : reads ((StorageRefs.new b!"" 2 2 (0 : Nat)).run doubling b!"" 0
    [.op (.put 0 1 5), .op (.addFrame 7), .ref 0 2 1, .ref 1 0 1, .op (.addFrame 8), .load 0, .load 1, .store 1 9, .ref 2 0 1, .load 2]) = .ok [7, 5, 9] := by decide +kernel

/-- one made before does not, -/
example : reads ((StorageRefs.new b!"" 2 2 (0 : Nat)).run doubling b!"" 0 [.op (.put 0 1 5), .ref 0 0 1, .op (.addFrame 7), .load 0]) = .ub := by decide +kernel

/-- and none survives another channel where there are two frames. -/
example : reads ((StorageRefs.new b!"" 2 2 (0 : Nat)).run doubling b!"" 0 [.op (.addFrame 7), .ref 0 0 1, .op (.addChannel b!"a" 3), .load 0]) = .ub := by decide +kernel

/-- With one frame it survives if there is room. -/
example : reads ((StorageRefs.new b!"" 1 2 (4 : Nat)).run doubling b!"" 0
    [.op (.addChannel b!"a" 3), .ref 0 0 1, .op (.addChannel b!"b" 6), .load 0, .refLabel 1 b!"b", .load 1]) = .ok [4, 6] := by decide +kernel

/-- `sto[ b ] = sto[ a ]` with a new channel. -/
example : reads ((StorageRefs.new b!"" 2 0 (0 : Nat)).run doubling b!"" 0 [.op (.addChannel b!"a" 3), .assignFrom true b!"b" b!"a"]) = .ub := by decide +kernel

example : reads ((StorageRefs.new b!"" 2 0 (0 : Nat)).run doubling b!"" 0
    [.op (.addChannel b!"a" 3), .assignFrom false b!"b" b!"a", .refLabel 0 b!"b", .load 0]) = .ok [3] := by decide +kernel

/-- `sto.add_frame( sto.data() )` and `sto.add_channel( label, sto.data() )`. -/
example : Storage.addFrameOwn 0 (Storage.new b!"" 1 2 (5 : Nat)) = .ub := by decide +kernel
example : Storage.addChannelOwn b!"" 0 b!"a" (Storage.new b!"" 1 2 (5 : Nat)) = .ub := by decide +kernel

/-- A table of two rows and four columns whose vector has room for twelve values. -/
def wide : TableRefs Nat Str :=
  ⟨⟨⟨[b!"r", b!"s"], [(b!"r", 0), (b!"s", 1)]⟩, ⟨[b!"a", b!"b", b!"c", b!"d"], [(b!"a", 0), (b!"b", 1), (b!"c", 2), (b!"d", 3)]⟩, [1, 2, 3, 4, 5, 6, 7, 8]⟩,
    ⟨12, 1, fun _ => 0⟩, fun _ => none⟩

/-- It can be reached. -/
example : Table.runAll b!"" 0 [.addColumn b!"a" 0, .addColumn b!"b" 0, .addColumn b!"c" 0, .addRow b!"r" 1, .addRow b!"s" 5, .addColumn b!"d" 0,
    .put 0 1 2, .put 0 2 3, .put 0 3 4, .put 1 1 6, .put 1 2 7, .put 1 3 8] (Table.new b!"" 0 0 0) = .ok wide.tab := by decide +kernel

/-- A reference to the value 7 survives another row, -/
example : reads (wide.run doubling b!"" 0 [.ref 0 1 2, .op (.addRow b!"t" 9), .load 0]) = .ok [7] := by decide +kernel

/-- but reads 6 after another column, -/
example : reads (wide.run doubling b!"" 0 [.ref 0 1 2, .op (.addColumn b!"e" 0), .load 0]) = .ok [6] := by decide +kernel

/-- and cannot be used after three. -/
example : reads (wide.run doubling b!"" 0 [.ref 0 1 2, .op (.addColumn b!"e" 0), .op (.addColumn b!"f" 0), .op (.addColumn b!"g" 0), .load 0]) = .ub := by
  decide +kernel

end Examples

end Flut
