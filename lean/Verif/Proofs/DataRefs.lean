import Verif.Spec.DataRefs
import Verif.Proofs.Storage
import Verif.Proofs.MapRefs

/-!
# References to the values of a `storage` and cells of a matrix
-/

namespace Flut

open Spec

namespace StorageRefs

open MapRefs (valid_iff valid_false valid_ref)

variable {α L : Type} [DecidableEq L]

/-- A storage with references shows a matrix with references to cells. -/
structure Shows (dl : L) (x : StorageRefs α L) (g : Grid α L) : Prop where
  rep : Storage.Rep dl x.sto g.m
  cap : x.slots.cap = g.room
  fits : g.m.rows.length * g.m.cols ≤ g.room
  young : ∀ j, x.slots.epoch j < x.slots.next
  old : ∀ h r, x.handle h = some r → r.epoch < x.slots.next
  live : ∀ h f c, g.handle h = some (f, c) →
    f < g.m.rows.length ∧ c < g.m.cols ∧ ∃ r, x.handle h = some r ∧ x.slots.valid r ∧ r.idx = f * g.m.cols + c
  dead : ∀ h, g.handle h = none → ∀ r, x.handle h = some r → x.slots.valid r = false

theorem Shows.init (dl : L) (frames channels : Nat) (value : α) : Shows dl (StorageRefs.new dl frames channels value) (Grid.init frames channels value) := by
  refine ⟨Storage.rep_new dl frames channels value, rfl, ?_, fun _ => Nat.zero_lt_one, (by intro h r h1; cases h1), (by intro h f c h1; cases h1),
    (by intro h _ r h1; cases h1)⟩
  simp [Grid.init, Matrix.init, Matrix.cols, Nat.mul_comm]

/-- What growing does to the vector, in terms of the matrix. -/
def grownSlots (grow : Nat → Nat → Nat) (m m' : Matrix α L) (s : Slots) : Slots :=
  if m.cols < m'.cols ∧ 1 < m.rows.length then s.fresh (m'.rows.length * m'.cols) else s.room grow (m'.rows.length * m'.cols)

theorem Shows.grown {dl : L} {x : StorageRefs α L} {g : Grid α L} (h : Shows dl x g) (grow : Nat → Nat → Nat) {s' : Storage α L} {m' : Matrix α L}
    (hr : Storage.Rep dl s' m') (hrows : g.m.rows.length ≤ m'.rows.length) (hcols : g.m.cols ≤ m'.cols) :
    Shows dl { x with sto := s', slots := grownSlots grow g.m m' x.slots } (g.grown grow m') := by
  unfold Grid.grown grownSlots
  by_cases hc : g.m.cols < m'.cols ∧ 1 < g.m.rows.length
  · rw [if_pos hc, if_pos hc]
    refine ⟨hr, rfl, Nat.le_refl _, fun _ => by simp [Slots.fresh], ?_, (by intro _ _ _ h1; cases h1), ?_⟩
    · intro h' r h1
      have := h.old h' r h1
      simp only [Slots.fresh]
      omega
    · intro h' _ r h1
      have := h.old h' r h1
      rw [valid_false]
      simp only [Slots.fresh]
      omega
  · rw [if_neg hc, if_neg hc]
    by_cases hf : m'.rows.length * m'.cols ≤ g.room
    · rw [if_pos hf]
      have e : x.slots.room grow (m'.rows.length * m'.cols) = x.slots := by
        rw [Slots.room, if_pos (by rw [h.cap]; exact hf)]
      rw [e]
      refine ⟨hr, h.cap, hf, h.young, h.old, ?_, h.dead⟩
      intro h' f c h1
      obtain ⟨h2, h3, r, h4, h5, h6⟩ := h.live h' f c h1
      refine ⟨Nat.lt_of_lt_of_le h2 hrows, Nat.lt_of_lt_of_le h3 hcols, r, h4, h5, ?_⟩
      rw [h6]
      by_cases hl : g.m.cols < m'.cols
      · have : f = 0 := by
          have : ¬ 1 < g.m.rows.length := fun h7 => hc ⟨hl, h7⟩
          omega
        rw [this]
        simp
      · rw [show m'.cols = g.m.cols by omega]
    · rw [if_neg hf]
      have e : x.slots.room grow (m'.rows.length * m'.cols) =
          ⟨max (m'.rows.length * m'.cols) (grow x.slots.cap (m'.rows.length * m'.cols)), x.slots.next + 1, fun _ => x.slots.next⟩ := by
        rw [Slots.room, if_neg (by rw [h.cap]; exact hf)]
      rw [e]
      refine ⟨hr, by simp [h.cap], by simp; omega, fun _ => by simp, ?_, (by intro _ _ _ h1; cases h1), ?_⟩
      · intro h' r h1
        have := h.old h' r h1
        simp only
        omega
      · intro h' _ r h1
        have := h.old h' r h1
        rw [valid_false]
        simp only
        omega

theorem resizeSlots_eq {dl : L} {x : StorageRefs α L} {m : Matrix α L} (r : Storage.Rep dl x.sto m) (grow : Nat → Nat → Nat) (nf nc : Nat) (m' : Matrix α L)
    (h1 : m'.rows.length = nf) (h2 : m'.cols = nc) : x.resizeSlots grow nf nc = grownSlots grow m m' x.slots := by
  unfold resizeSlots grownSlots
  rw [h1, h2, r.channels, r.frames]
  by_cases h3 : nc > m.labels.length
  · rw [if_pos h3]
    by_cases h4 : m.rows.length > 1
    · rw [if_pos h4, if_pos ⟨h3, h4⟩, Nat.mul_comm]
    · rw [if_neg h4, if_neg (fun h => h4 h.2)]
  · rw [if_neg h3, if_neg (fun h => h3 h.1)]

/-- What an operation makes of the sizes. -/
theorem step_sizes (dv : α) (o : Storage.Op α L) (m m' : Matrix α L) (h : m.step dv o = .ok m') :
    match o with
    | .addChannel _ _ => m'.rows.length = m.rows.length ∧ m'.cols = m.cols + 1
    | .addChannelData _ xs => m'.rows.length = max m.rows.length xs.length ∧ m'.cols = m.cols + 1
    | .addFrame _ => m'.rows.length = m.rows.length + 1 ∧ m'.cols = m.cols
    | .addFrameData _ => m'.rows.length = m.rows.length + 1 ∧ m'.cols = m.cols
    | .resize nf nc _ => m'.rows.length = nf ∧ m'.cols = nc ∧ m.rows.length ≤ nf ∧ m.cols ≤ nc
    | .put _ _ _ => m'.rows.length = m.rows.length ∧ m'.cols = m.cols
    | .clear => True := by
  cases o <;> simp only [Matrix.step] at h
  case addChannel l v => split at h <;> cases h; simp [Matrix.cols]
  case addChannelData l xs => split at h <;> cases h; simp [Matrix.cols]
  case addFrame v => cases h; simp [Matrix.cols]
  case addFrameData xs => split at h <;> cases h; simp [Matrix.cols]
  case resize nf nc v =>
    split at h <;> cases h
    rename_i h1
    simp only [Matrix.cols] at h1
    simp [Matrix.cols]
    omega
  case put f c x => split at h <;> cases h; simp [Matrix.cols]
  case clear => trivial

theorem Shows.op {dl : L} {x : StorageRefs α L} {g : Grid α L} (h : Shows dl x g) (grow : Nat → Nat → Nat) (dv : α) (o : Storage.Op α L) (ho : o ≠ .clear)
    {s' : Storage α L} {m' : Matrix α L} (h1 : g.m.step dv o = .ok m') (hr : Storage.Rep dl s' m') :
    Shows dl { x with sto := s', slots := x.slotsAfter grow o } (g.grown grow m') := by
  have h2 := step_sizes dv o g.m m' h1
  have key : x.slotsAfter grow o = grownSlots grow g.m m' x.slots ∧ g.m.rows.length ≤ m'.rows.length ∧ g.m.cols ≤ m'.cols := by
    cases o with
    | addChannel l v =>
      obtain ⟨h3, h4⟩ := h2
      refine ⟨?_, by omega, by omega⟩
      exact resizeSlots_eq h.rep grow _ _ m' (by rw [h3, h.rep.frames]) (by rw [h4, h.rep.channels]; rfl)
    | addChannelData l xs =>
      obtain ⟨h3, h4⟩ := h2
      refine ⟨?_, by omega, by omega⟩
      exact resizeSlots_eq h.rep grow _ _ m' (by rw [h3, h.rep.frames]) (by rw [h4, h.rep.channels]; rfl)
    | addFrame v =>
      obtain ⟨h3, h4⟩ := h2
      refine ⟨?_, by omega, by omega⟩
      unfold slotsAfter grownSlots
      rw [if_neg (by omega), h.rep.dataLength, h.rep.channels, h3, h4, Nat.add_mul, Nat.one_mul]
      rfl
    | addFrameData v =>
      obtain ⟨h3, h4⟩ := h2
      refine ⟨?_, by omega, by omega⟩
      unfold slotsAfter grownSlots
      rw [if_neg (by omega), h.rep.dataLength, h.rep.channels, h3, h4, Nat.add_mul, Nat.one_mul]
      rfl
    | resize nf nc v =>
      obtain ⟨h3, h4, h5, h6⟩ := h2
      refine ⟨?_, by omega, by omega⟩
      exact resizeSlots_eq h.rep grow _ _ m' h3 h4
    | put f c v =>
      obtain ⟨h3, h4⟩ := h2
      refine ⟨?_, by omega, by omega⟩
      simp only [slotsAfter, grownSlots]
      rw [if_neg (by omega), Slots.room, if_pos (by rw [h3, h4, h.cap]; exact h.fits)]
    | clear => exact (ho rfl).elim
  rw [key.1]
  exact h.grown grow hr key.2.1 key.2.2

theorem Shows.load {dl : L} {x : StorageRefs α L} {g : Grid α L} (h : Shows dl x g) (r : Ref) (hr : x.slots.valid r) (f c : Nat)
    (hf : f < g.m.rows.length) (hc : c < g.m.cols) (hi : r.idx = f * g.m.cols + c) : ∃ v, x.load r = .ok v ∧ g.cell f c = some v := by
  obtain ⟨v, h1, h2⟩ := h.rep.get f c hf hc
  refine ⟨v, ?_, h1⟩
  rw [StorageRefs.load, if_pos hr, hi, ← h2, Storage.get, h.rep.channels]
  rfl

theorem Shows.store {dl : L} {x : StorageRefs α L} {g : Grid α L} (h : Shows dl x g) (r : Ref) (hr : x.slots.valid r) (f c : Nat)
    (hf : f < g.m.rows.length) (hc : c < g.m.cols) (hi : r.idx = f * g.m.cols + c) (v : α) :
    ∃ x', x.store r v = .ok x' ∧ Shows dl x' (g.write f c v) := by
  obtain ⟨s', h1, h2⟩ := Storage.rep_put h.rep f c v hf hc
  refine ⟨{ x with sto := s' }, ?_, h2, h.cap, ?_, h.young, h.old, ?_, h.dead⟩
  · rw [StorageRefs.store, if_pos hr, hi]
    simp only [Storage.put, h.rep.channels] at h1
    change vset x.sto.data (f * g.m.cols + c) v >>= _ = _ at h1
    obtain ⟨d, h3, h4⟩ := Res.bind_eq_ok.1 h1
    cases h4
    simp only [h3, Res.bind_ok]
  · have := h.fits
    simp only [Grid.write, List.length_modify, Matrix.cols] at this ⊢
    exact this
  · intro h' f' c' h3
    have := h.live h' f' c' h3
    simp only [Grid.write, List.length_modify, Matrix.cols] at this ⊢
    exact this

/-- The column of a label. -/
theorem Shows.byLabel {dl : L} {x : StorageRefs α L} {g : Grid α L} (h : Shows dl x g) (grow : Nat → Nat → Nat) (dv : α) (l : L) :
    (g.m.rows = [] → x.byLabel grow dl dv l = .throws .assertion) ∧
    (g.m.rows ≠ [] → ∃ r x', x.byLabel grow dl dv l = .ok (r, x') ∧ Shows dl x' (g.column grow dv l).2 ∧ x'.handle = x.handle ∧ x'.slots.valid r ∧
      (g.column grow dv l).2.m.rows.length = g.m.rows.length ∧
      r.idx = (g.m.rows.length - 1) * (g.column grow dv l).2.m.cols + (g.column grow dv l).1 ∧
      (g.column grow dv l).1 < (g.column grow dv l).2.m.cols ∧
      (g.Steady l → x'.slots = x.slots ∧ (g.column grow dv l).2.handle = g.handle) ∧
      (¬ g.Steady l → x'.slots.epoch = fun _ => x.slots.next)) := by
  have hfind : x.sto.findChannel l = .ok (g.m.labels.findIdx? (· = some l)) := by
    rw [Storage.findChannel]
    exact h.rep.labels.shows.find l
  obtain ⟨ha, hb⟩ := Storage.rep_findOrAdd h.rep l dv
  cases hi : g.m.labels.findIdx? (· = some l) with
  | some c =>
    have e := ha c hi
    have hcc : c < g.m.labels.length := by
      have := List.findIdx?_eq_some_iff_findIdx_eq.1 hi
      omega
    have hmem : some l ∈ g.m.labels := by
      refine Decidable.byContradiction fun hc => ?_
      rw [(Header.findIdx?_eq_none _ _).2 hc] at hi
      cases hi
    have ecol : g.column grow dv l = (c, g) := by simp only [Grid.column, hi]
    have hlen := h.rep.dataLength
    rw [ecol]
    constructor
    · intro h0
      rw [h0] at hlen
      have : x.sto.data.isEmpty = true := by
        rw [List.isEmpty_iff]
        exact List.eq_nil_of_length_eq_zero (by simpa using hlen)
      simp only [StorageRefs.byLabel, hfind, hi, Res.bind_ok, e, this, if_true]
    · intro h0
      have hp : 0 < g.m.rows.length := List.length_pos_iff.2 h0
      have h1 : x.sto.data.isEmpty = false := by
        rw [List.isEmpty_eq_false_iff]
        intro h2
        rw [h2] at hlen
        have := Nat.mul_pos hp (show 0 < g.m.labels.length by omega)
        simp at hlen
        omega
      have h2 : x.sto.frames ≠ 0 := by rw [h.rep.frames]; omega
      refine ⟨x.slots.ref ((x.sto.frames - 1) * x.sto.channels + c), x, ?_, h, rfl, valid_ref _ _, rfl, ?_, hcc, ?_, ?_⟩
      · simp only [StorageRefs.byLabel, hfind, hi, Res.bind_ok, e, h1, Bool.false_eq_true, if_false, if_neg h2]
        simp
      · simp only [Slots.ref, h.rep.frames, h.rep.channels]
        rfl
      · exact fun _ => ⟨rfl, rfl⟩
      · intro hs
        exact (hs (.inl hmem)).elim
  | none =>
    have hmem : some l ∉ g.m.labels := (Header.findIdx?_eq_none _ _).1 hi
    obtain ⟨s', e, hr⟩ := hb hmem
    have ecol : g.column grow dv l = (g.m.cols, g.grown grow ⟨g.m.labels ++ [some l], g.m.rows.map (· ++ [dv])⟩) := by simp only [Grid.column, hi]
    have hlen := hr.dataLength
    simp only [List.length_map, List.length_append, List.length_singleton] at hlen
    have hs := resizeSlots_eq h.rep grow x.sto.frames (x.sto.channels + 1) ⟨g.m.labels ++ [some l], g.m.rows.map (· ++ [dv])⟩
      (by simp [h.rep.frames]) (by simp [Matrix.cols, h.rep.channels])
    have hsh := h.grown grow hr (by simp) (by simp [Matrix.cols])
    have egr : (g.grown grow ⟨g.m.labels ++ [some l], g.m.rows.map (· ++ [dv])⟩).m = ⟨g.m.labels ++ [some l], g.m.rows.map (· ++ [dv])⟩ := by
      unfold Grid.grown
      split
      · rfl
      · split <;> rfl
    have ecols : (⟨g.m.labels ++ [some l], g.m.rows.map (· ++ [dv])⟩ : Matrix α L).cols = g.m.cols + 1 := by simp [Matrix.cols]
    rw [ecol]
    constructor
    · intro h0
      rw [h0] at hlen
      have : s'.data.isEmpty = true := by
        rw [List.isEmpty_iff]
        exact List.eq_nil_of_length_eq_zero (by simpa using hlen)
      simp only [StorageRefs.byLabel, hfind, hi, Res.bind_ok, e, this, if_true]
    · intro h0
      have hp : 0 < g.m.rows.length := List.length_pos_iff.2 h0
      have h1 : s'.data.isEmpty = false := by
        rw [List.isEmpty_eq_false_iff]
        intro h2
        rw [h2] at hlen
        have := Nat.mul_pos hp (show 0 < g.m.labels.length + 1 by omega)
        simp at hlen
        omega
      have hfr : s'.frames = g.m.rows.length := by rw [hr.frames]; simp
      have hch : s'.channels = g.m.cols + 1 := by rw [hr.channels]; simp [Matrix.cols]
      have h2 : s'.frames ≠ 0 := by omega
      refine ⟨(grownSlots grow g.m ⟨g.m.labels ++ [some l], g.m.rows.map (· ++ [dv])⟩ x.slots).ref ((g.m.rows.length - 1) * (g.m.cols + 1) + g.m.cols), _, ?_, hsh, rfl, valid_ref _ _, ?_, ?_, ?_, ?_, ?_⟩
      · simp only [StorageRefs.byLabel, hfind, hi, Res.bind_ok, e, h1, Bool.false_eq_true, if_false, if_neg h2, if_true, hs, hfr, hch]
        rw [if_neg (by omega)]
        rfl
      · simp only [egr, List.length_map]
      · simp only [egr, ecols, Slots.ref]
      · simp only [egr, ecols]
        omega
      · intro hst
        have hst := hst.resolve_left hmem
        have c1 : ¬ (g.m.cols < (⟨g.m.labels ++ [some l], g.m.rows.map (· ++ [dv])⟩ : Matrix α L).cols ∧ 1 < g.m.rows.length) := by omega
        have c2 : (g.m.rows.map (· ++ [dv])).length * (⟨g.m.labels ++ [some l], g.m.rows.map (· ++ [dv])⟩ : Matrix α L).cols ≤ g.room := by
          rw [ecols, List.length_map]; exact hst.2
        constructor
        · simp only [grownSlots]
          rw [if_neg c1, Slots.room, if_pos (by rw [h.cap]; exact c2)]
        · simp only [Grid.grown]
          rw [if_neg c1, if_pos c2]
      · intro hst
        simp only [grownSlots]
        by_cases c1 : g.m.cols < (⟨g.m.labels ++ [some l], g.m.rows.map (· ++ [dv])⟩ : Matrix α L).cols ∧ 1 < g.m.rows.length
        · rw [if_pos c1]
          rfl
        · rw [if_neg c1]
          have c2 : ¬ (g.m.rows.map (· ++ [dv])).length * (⟨g.m.labels ++ [some l], g.m.rows.map (· ++ [dv])⟩ : Matrix α L).cols ≤ g.room := by
            rw [ecols, List.length_map]
            rw [ecols] at c1
            exact fun c2 => hst (.inr ⟨by omega, c2⟩)
          rw [Slots.room, if_neg (by rw [h.cap]; exact c2)]

theorem column_cols (grow : Nat → Nat → Nat) (dv : α) (l : L) (g : Grid α L) : g.m.cols ≤ (g.column grow dv l).2.m.cols := by
  unfold Grid.column
  split
  · exact Nat.le_refl _
  · unfold Grid.grown
    have e : ∀ o : Option L, g.m.cols ≤ (g.m.labels ++ [o]).length := by intro o; simp [Matrix.cols]
    split
    · exact e _
    · split <;> exact e _

theorem Shows.withHandle {dl : L} {x : StorageRefs α L} {g : Grid α L} (h : Shows dl x g) (h' : Nat) (r : Ref) (f c : Nat) (hr : x.slots.valid r)
    (hf : f < g.m.rows.length) (hc : c < g.m.cols) (hi : r.idx = f * g.m.cols + c) :
    Shows dl { x with handle := fun k => if k = h' then some r else x.handle k } { g with handle := fun k => if k = h' then some (f, c) else g.handle k } := by
  refine ⟨h.rep, h.cap, h.fits, h.young, ?_, ?_, ?_⟩
  · intro k r' h1
    simp only at h1
    split at h1
    · cases h1
      rw [(valid_iff _ _).1 hr]
      exact h.young _
    · exact h.old _ _ h1
  · intro k f' c' h1
    simp only at h1 ⊢
    by_cases e : k = h'
    · rw [if_pos e] at h1 ⊢
      cases h1
      exact ⟨hf, hc, r, rfl, hr, hi⟩
    · rw [if_neg e] at h1 ⊢
      exact h.live _ _ _ h1
  · intro k h1 r' h2
    simp only at h1 h2 ⊢
    by_cases e : k = h'
    · rw [if_pos e] at h1; cases h1
    · rw [if_neg e] at h1 h2
      exact h.dead _ h1 _ h2

theorem Shows.step {dl : L} {x : StorageRefs α L} {g : Grid α L} (h : Shows dl x g) (grow : Nat → Nat → Nat) (dv : α) (op : Op α L) :
    Agree (fun p q => p.1 = q.1 ∧ Shows dl p.2 q.2) (x.step grow dl dv op) (g.step grow dv op) := by
  cases op with
  | op o =>
    by_cases ho : o = .clear
    · subst ho
      simp only [StorageRefs.step, Grid.step, Storage.run, Res.bind_ok]
      refine ⟨rfl, ⟨rfl, Header.rep_clear dl, rfl, by simp⟩, h.cap, by simp, ?_, ?_, (by intro _ _ _ h1; cases h1), ?_⟩
      · intro j
        simp [slotsAfter, Slots.cut]
      · intro h' r hr
        have := h.old h' r hr
        simp only [slotsAfter, Slots.cut]
        omega
      · intro h' _ r hr
        have := h.old h' r hr
        rw [valid_false]
        change r.epoch ≠ (if 0 ≤ r.idx then x.slots.next else x.slots.epoch r.idx)
        rw [if_pos (Nat.zero_le _)]
        omega
    · have h1 := Storage.rep_run dv h.rep o
      have e : g.step grow dv (.op o) = (do let m ← g.m.step dv o; .ok (none, g.grown grow m)) := by
        cases o <;> first | rfl | exact (ho rfl).elim
      rw [e]
      simp only [StorageRefs.step]
      cases e1 : x.sto.run dl dv o <;> cases e2 : g.m.step dv o <;> rw [e1, e2] at h1 <;>
        first | exact h1 | (exfalso; exact h1) | skip
      exact ⟨rfl, h.op grow dv o ho e2 h1⟩
  | ref h' f c =>
    simp only [StorageRefs.step, Grid.step, h.rep.frames, h.rep.channels]
    change Agree _ (if f < g.m.rows.length ∧ c < g.m.cols then _ else _) _
    by_cases hc : f < g.m.rows.length ∧ c < g.m.cols
    · rw [if_pos hc, if_pos hc]
      exact ⟨rfl, h.withHandle h' _ f c (valid_ref _ _) hc.1 hc.2 rfl⟩
    · rw [if_neg hc, if_neg hc]
      rfl
  | refLabel h' l =>
    obtain ⟨h1, h2⟩ := h.byLabel grow dv l
    simp only [StorageRefs.step, Grid.step]
    by_cases hr : g.m.rows = []
    · rw [h1 hr, if_pos hr]
      rfl
    · obtain ⟨r, x', h3, h4, h5, h6, h7, h8, h9, -⟩ := h2 hr
      have hp : 0 < g.m.rows.length := List.length_pos_iff.2 hr
      rw [h3, if_neg hr]
      simp only [Res.bind_ok, h7]
      exact ⟨rfl, h4.withHandle h' r _ _ h6 (by omega) h9 h8⟩
  | load h' =>
    simp only [StorageRefs.step, Grid.step]
    cases hd : g.handle h' with
    | none =>
      cases hm : x.handle h' with
      | none => exact trivial
      | some r =>
        simp only [StorageRefs.load, h.dead h' hd r hm]
        exact trivial
    | some p =>
      obtain ⟨f, c⟩ := p
      obtain ⟨h1, h2, r, h3, h4, h5⟩ := h.live h' f c hd
      obtain ⟨v, h6, h7⟩ := h.load r h4 f c h1 h2 h5
      simp only [h3, h6, h7, Res.bind_ok]
      exact ⟨rfl, h⟩
  | store h' v =>
    simp only [StorageRefs.step, Grid.step]
    cases hd : g.handle h' with
    | none =>
      cases hm : x.handle h' with
      | none => exact trivial
      | some r =>
        simp only [StorageRefs.store, h.dead h' hd r hm]
        exact trivial
    | some p =>
      obtain ⟨f, c⟩ := p
      obtain ⟨h1, h2, r, h3, h4, h5⟩ := h.live h' f c hd
      obtain ⟨x', h6, h7⟩ := h.store r h4 f c h1 h2 h5 v
      simp only [h3, h6, Res.bind_ok]
      exact ⟨rfl, h7⟩
  | assignFrom rf l j =>
    simp only [StorageRefs.step, Grid.step]
    obtain ⟨h1, h2⟩ := h.byLabel grow dv (if rf then j else l)
    by_cases hr : g.m.rows = []
    · rw [h1 hr, if_pos hr]
      rfl
    · obtain ⟨r, x', h3, h4, h5, h6, h7, h8, h9, -⟩ := h2 hr
      have hp : 0 < g.m.rows.length := List.length_pos_iff.2 hr
      rw [h3, if_neg hr]
      simp only [Res.bind_ok]
      generalize hcol : g.column grow dv (if rf = true then j else l) = gc at *
      obtain ⟨c, g'⟩ := gc
      simp only at h4 h7 h8 h9 ⊢
      have hr' : g'.m.rows ≠ [] := by
        intro h0
        rw [h0] at h7
        simp at h7
        omega
      obtain ⟨-, h10⟩ := h4.byLabel grow dv (if rf then l else j)
      obtain ⟨r', x'', h11, h12, h13, h14, h15, h16, h17, h18, h19⟩ := h10 hr'
      rw [h11]
      simp only [Res.bind_ok]
      by_cases hs : g'.Steady (if rf = true then l else j)
      · rw [if_pos hs]
        obtain ⟨h20, h21⟩ := h18 hs
        have hcols : g'.m.cols = (g'.column grow dv (if rf = true then l else j)).2.m.cols ∨ g'.m.rows.length = 1 := by
          rcases hs with hs | hs
          · left
            unfold Grid.column
            cases hi : g'.m.labels.findIdx? (· = some (if rf = true then l else j)) with
            | some _ => rfl
            | none => exact ((Header.findIdx?_eq_none _ _).1 hi hs).elim
          · right
            have : 0 < g'.m.rows.length := List.length_pos_iff.2 hr'
            omega
        have hmono := column_cols grow dv (if rf = true then l else j) g'
        generalize hcol' : g'.column grow dv (if rf = true then l else j) = gc' at *
        obtain ⟨c', g''⟩ := gc'
        simp only at h12 h15 h16 h17 hcols hmono ⊢
        have hlast : g''.m.rows.length - 1 < g''.m.rows.length := by omega
        have hri : r.idx = (g''.m.rows.length - 1) * g''.m.cols + c := by
          rw [h8, h15, h7]
          rcases hcols with e | e
          · rw [e]
          · rw [← h7, e]; simp
        have hri' : r'.idx = (g''.m.rows.length - 1) * g''.m.cols + c' := by rw [h16, h15]
        have hv : x''.slots.valid r := by rw [h20]; exact h6
        have hc9 : c < g''.m.cols := Nat.lt_of_lt_of_le h9 hmono
        cases rf with
        | true =>
          simp only [if_true]
          obtain ⟨v, h22, h23⟩ := h12.load r hv _ c hlast hc9 hri
          obtain ⟨y, h24, h25⟩ := h12.store r' h14 _ c' hlast h17 hri' v
          simp only [h22, h23, Res.bind_ok, h24]
          exact ⟨rfl, h25⟩
        | false =>
          simp only [Bool.false_eq_true, if_false]
          obtain ⟨v, h22, h23⟩ := h12.load r' h14 _ c' hlast h17 hri'
          obtain ⟨y, h24, h25⟩ := h12.store r hv _ c hlast hc9 hri v
          simp only [h22, h23, Res.bind_ok, h24]
          exact ⟨rfl, h25⟩
      · rw [if_neg hs]
        have h20 := h19 hs
        have hv : x''.slots.valid r = false := by
          rw [valid_false, h20, (valid_iff _ _).1 h6]
          exact Nat.ne_of_lt (h4.young r.idx)
        cases rf with
        | true =>
          simp only [if_true, StorageRefs.load, hv]
          exact trivial
        | false =>
          simp only [Bool.false_eq_true, if_false]
          obtain ⟨v, h22, -⟩ := h12.load r' h14 (g'.m.rows.length - 1) _ (by rw [h15, h7]; omega) h17 h16
          simp only [h22, Res.bind_ok, StorageRefs.store, hv]
          exact trivial

theorem Shows.run {dl : L} (grow : Nat → Nat → Nat) (dv : α) (ops : List (Op α L)) : ∀ {x : StorageRefs α L} {g : Grid α L}, Shows dl x g →
    Agree (fun p q => p.1 = q.1 ∧ Shows dl p.2 q.2) (x.run grow dl dv ops) (g.run grow dv ops) := by
  induction ops with
  | nil => intro m d h; exact ⟨rfl, h⟩
  | cons op ops ih =>
    intro m d h
    have h1 := h.step grow dv op
    rw [StorageRefs.run, Grid.run]
    cases e1 : m.step grow dl dv op <;> cases e2 : d.step grow dv op <;> rw [e1, e2] at h1 <;>
      first | exact h1 | (exfalso; exact h1) | skip
    rename_i p q
    obtain ⟨a, m'⟩ := p
    obtain ⟨a', d'⟩ := q
    obtain ⟨h2, h3⟩ := h1
    have h4 := ih h3
    simp only [Res.bind_ok]
    simp only at h2 h4
    cases e3 : m'.run grow dl dv ops <;> cases e4 : d'.run grow dv ops <;> rw [e3, e4] at h4 <;>
      first | exact h4 | (exfalso; exact h4) | skip
    rename_i p q
    exact ⟨by simp only [h2, show p.1 = q.1 from h4.1], h4.2⟩

end StorageRefs

end Flut
