import Verif.Proofs.Data

/-! Lemmas about `storage`. -/

namespace Flut

namespace Storage

variable {α L : Type} [DecidableEq L]

/-- The storage holds the matrix. -/
structure Rep (dl : L) (s : Storage α L) (m : Matrix α L) : Prop where
  frames : s.frames = m.rows.length
  labels : Header.Rep dl s.labels m.labels
  data : s.data = m.rows.flatten
  wf : ∀ r ∈ m.rows, r.length = m.labels.length

theorem Rep.channels {dl : L} {s : Storage α L} {m : Matrix α L} (r : Rep dl s m) :
    s.channels = m.labels.length := r.labels.size

theorem Rep.dataLength {dl : L} {s : Storage α L} {m : Matrix α L} (r : Rep dl s m) :
    s.data.length = m.rows.length * m.labels.length := by
  rw [r.data, flatten_length _ _ r.wf]

theorem Rep.get {dl : L} {s : Storage α L} {m : Matrix α L} (r : Rep dl s m) (f c : Nat)
    (hf : f < m.rows.length) (hc : c < m.labels.length) :
    ∃ x, m.rows[f]?.bind (·[c]?) = some x ∧ s.get f c = .ok x := by
  have hlen : c < (m.rows[f]).length := by rw [r.wf _ (List.getElem_mem _)]; exact hc
  refine ⟨m.rows[f][c], by simp [hf, hlen], ?_⟩
  unfold Storage.get
  apply vget_eq
  rw [r.data, r.channels, flatten_get _ _ r.wf f c hc]
  simp [hf, hlen]

theorem Rep.shows {dl : L} {s : Storage α L} {m : Matrix α L} (r : Rep dl s m) : StorageShows dl s m := by
  refine ⟨r.frames, r.channels, r.labels.shows, ?_, ?_⟩
  · intro f c hf hc
    obtain ⟨x, h1, h2⟩ := r.get f c hf hc
    refine ⟨x, h1, ?_, h2⟩
    unfold at'
    rw [if_pos ⟨by rw [r.frames]; exact hf, by rw [r.channels]; exact hc⟩]
    exact h2
  · intro f c h
    unfold at'
    rw [if_neg (by rw [r.frames, r.channels]; exact h)]

theorem replicate_flatten (n k : Nat) (v : α) :
    (List.replicate n (List.replicate k v)).flatten = List.replicate (n * k) v := by
  simp

theorem copyChannels_eq (och nch fi : Nat) (ys oa ob zs a b : List α) (ci : Nat)
    (h1 : oa.length = och * fi + ci) (h2 : a.length = nch * fi + ci) (h3 : zs.length = ys.length) :
    copyChannels (oa ++ ys ++ ob) och nch fi ys.length ci (a ++ zs ++ b) = .ok (a ++ ys ++ b) := by
  induction ys generalizing oa zs a ci with
  | nil =>
    have : zs = [] := List.eq_nil_of_length_eq_zero (by simpa using h3)
    subst this
    rfl
  | cons y ys ih =>
    cases zs with
    | nil => simp at h3
    | cons z zs =>
      simp only [List.length_cons, copyChannels]
      rw [List.append_assoc, List.cons_append, vget_append_length _ _ _ _ h1.symm]
      simp only [Res.bind_ok]
      rw [List.append_assoc, List.cons_append, vset_append_length _ _ _ _ _ h2.symm]
      simp only [Res.bind_ok]
      have := ih (oa ++ [y]) zs (a ++ [y]) (ci + 1) (by simp; omega) (by simp; omega) (by simpa using h3)
      simpa using this

theorem copyFrames_eq (och nch : Nat) (v : α) (hc : och ≤ nch) (rows : List (List α))
    (hr : ∀ r ∈ rows, r.length = och) (oa a b : List α) (fi : Nat)
    (h1 : oa.length = och * fi) (h2 : a.length = nch * fi) :
    copyFrames (oa ++ rows.flatten) och nch rows.length fi
        (a ++ (List.replicate rows.length (List.replicate nch v)).flatten ++ b)
      = .ok (a ++ (rows.map (· ++ List.replicate (nch - och) v)).flatten ++ b) := by
  induction rows generalizing oa a fi with
  | nil => rfl
  | cons r rows ih =>
    have hrl := hr r (by simp)
    simp only [List.length_cons, List.replicate_succ, List.flatten_cons, copyFrames, List.map_cons]
    have hsplit : List.replicate nch v = List.replicate och v ++ List.replicate (nch - och) v := by
      rw [List.replicate_append_replicate]; congr 1; omega
    have := copyChannels_eq och nch fi r oa rows.flatten (List.replicate och v) a
      (List.replicate (nch - och) v ++ (List.replicate rows.length (List.replicate nch v)).flatten ++ b) 0
      (by omega) (by omega) (by simp [hrl])
    rw [hrl] at this
    have e1 : a ++ (List.replicate nch v ++ (List.replicate rows.length (List.replicate nch v)).flatten) ++ b
        = a ++ List.replicate och v ++ (List.replicate (nch - och) v
            ++ (List.replicate rows.length (List.replicate nch v)).flatten ++ b) := by
      rw [show a ++ (List.replicate nch v ++ (List.replicate rows.length (List.replicate nch v)).flatten) ++ b
        = a ++ (List.replicate och v ++ List.replicate (nch - och) v
          ++ (List.replicate rows.length (List.replicate nch v)).flatten) ++ b by rw [← hsplit]]
      simp only [List.append_assoc]
    have e2 : oa ++ (r ++ rows.flatten) = oa ++ r ++ rows.flatten := by simp
    rw [e1, e2, this]
    simp only [Res.bind_ok]
    have := ih (fun x hx => hr x (by simp [hx])) (oa ++ r) (a ++ r ++ List.replicate (nch - och) v) (fi + 1)
      (by simp only [List.length_append, hrl, h1, Nat.mul_add]; omega)
      (by simp only [List.length_append, hrl, h2, Nat.mul_add, List.length_replicate]; omega)
    simp only [List.append_assoc] at this ⊢
    exact this

theorem rep_new (dl : L) (frames channels : Nat) (v : α) :
    Rep dl (Storage.new dl frames channels v) (Matrix.init frames channels v) := by
  refine ⟨by simp [Storage.new, Matrix.init], Header.rep_new dl channels, ?_, ?_⟩
  · simp [Storage.new, Matrix.init, Nat.mul_comm]
  · intro r hr
    simp only [Matrix.init] at hr ⊢
    rw [List.mem_replicate] at hr
    rw [hr.2]; simp

theorem map_append_nil (rows : List (List α)) (v : α) :
    rows.map (· ++ List.replicate 0 v) = rows := by
  simp

theorem wf_grow (rows : List (List α)) (n nc k : Nat) (v : α) (hn : n ≤ nc) (h : ∀ r ∈ rows, r.length = n) :
    ∀ r ∈ rows.map (· ++ List.replicate (nc - n) v) ++ List.replicate k (List.replicate nc v), r.length = nc := by
  intro r hr
  rcases List.mem_append.1 hr with hr | hr
  · obtain ⟨x, hx, rfl⟩ := List.mem_map.1 hr
    rw [List.length_append, List.length_replicate, h x hx]; omega
  · rw [List.mem_replicate] at hr
    rw [hr.2]; simp

theorem resizeData (rows : List (List α)) (n : Nat) (h : ∀ r ∈ rows, r.length = n) (nf : Nat)
    (hf : rows.length ≤ nf) (v : α) :
    vresize rows.flatten (nf * n) v
      = (rows ++ List.replicate (nf - rows.length) (List.replicate n v)).flatten := by
  have hlen := flatten_length rows n h
  rw [vresize_grow _ _ _ (by rw [hlen]; exact Nat.mul_le_mul_right n hf), List.flatten_append, replicate_flatten,
    hlen, Nat.sub_mul]

theorem rep_resize {dl : L} {s : Storage α L} {m : Matrix α L} (r : Rep dl s m) (nf nc : Nat) (v : α)
    (hf : m.rows.length ≤ nf) (hc : m.labels.length ≤ nc) :
    ∃ s', s.resize dl nf nc v = .ok s' ∧
      Rep dl s' ⟨m.labels ++ List.replicate (nc - m.labels.length) none,
        m.rows.map (· ++ List.replicate (nc - m.labels.length) v)
          ++ List.replicate (nf - m.rows.length) (List.replicate nc v)⟩ := by
  have hch := r.channels
  have hfr := r.frames
  unfold Storage.resize
  rw [if_neg (by rw [hfr, hch]; omega)]
  by_cases hgt : nc > m.labels.length
  · rw [if_pos (by rw [hch]; exact hgt)]
    obtain ⟨ls, hl1, hl2⟩ := Header.rep_resize r.labels nc hc
    have hdata : s.widen nf nc v
        = .ok ((m.rows.map (· ++ List.replicate (nc - m.labels.length) v)
          ++ List.replicate (nf - m.rows.length) (List.replicate nc v)).flatten) := by
      unfold widen
      by_cases h1 : s.frames > 1
      · rw [if_pos h1, r.data, hch, hfr]
        have := copyFrames_eq m.labels.length nc v hc m.rows r.wf [] []
          (List.replicate (nf - m.rows.length) (List.replicate nc v)).flatten 0 (by simp) (by simp)
        simp only [List.nil_append] at this
        rw [List.flatten_append, ← this]
        congr 1
        rw [replicate_flatten, replicate_flatten, List.replicate_append_replicate, ← Nat.add_mul, Nat.mul_comm]
        congr 2
        omega
      · rw [if_neg h1, r.data]
        congr 1
        have hwf := r.wf
        rw [hfr] at h1
        match hrows : m.rows with
        | [] =>
          simp only [List.flatten_nil, List.map_nil, List.nil_append, List.length_nil, Nat.sub_zero]
          rw [replicate_flatten]
          simp [vresize]
        | [row] =>
          rw [hrows] at hwf hf
          have hrow := hwf row (by simp)
          simp only [List.length_singleton] at hf
          have hle : nc ≤ nf * nc := Nat.le_mul_of_pos_left nc hf
          simp only [List.flatten_cons, List.flatten_nil, List.append_nil, List.map_cons, List.map_nil,
            List.cons_append, List.nil_append, List.length_singleton]
          rw [replicate_flatten, vresize_grow _ _ _ (by omega), List.append_assoc,
            List.replicate_append_replicate, Nat.sub_mul]
          congr 2
          omega
        | _ :: _ :: _ => rw [hrows] at h1; simp at h1
    rw [hdata, hl1]
    exact ⟨_, rfl, by simp [hf], hl2, rfl, by
      simpa [show m.labels.length + (nc - m.labels.length) = nc by omega] using wf_grow m.rows m.labels.length nc (nf - m.rows.length) v hc r.wf⟩
  · have hceq : nc = m.labels.length := by omega
    subst hceq
    rw [if_neg (by rw [hch]; exact hgt)]
    refine ⟨_, rfl, by simp [hf], by simpa using r.labels, ?_, ?_⟩
    · simp only [Nat.sub_self, map_append_nil]
      rw [r.data]
      exact resizeData m.rows _ r.wf nf hf v
    · simpa using wf_grow m.rows m.labels.length m.labels.length (nf - m.rows.length) v hc r.wf

theorem rep_addChannel {dl : L} {s : Storage α L} {m : Matrix α L} (r : Rep dl s m) (l : L) (v : α)
    (hl : some l ∉ m.labels) :
    ∃ s', s.addChannel dl l v = (s', .ok m.labels.length) ∧
      Rep dl s' ⟨m.labels ++ [some l], m.rows.map (· ++ [v])⟩ := by
  obtain ⟨s1, h1, r1⟩ := rep_resize r m.rows.length (m.labels.length + 1) v (by omega) (by omega)
  simp only [Nat.add_sub_cancel_left, Nat.sub_self, List.replicate_zero, List.append_nil, List.replicate_one] at r1
  obtain ⟨h', e2, r2⟩ := Header.rep_set_last r1.labels l hl
  have hc1 : s1.channels - 1 = m.labels.length := by rw [r1.channels]; simp
  refine ⟨{ s1 with labels := h' }, ?_, ?_⟩
  · unfold addChannel
    rw [r.frames, r.channels, h1]
    simp only [hc1, e2]
  · refine ⟨r1.frames, r2, r1.data, ?_⟩
    intro x hx
    have := r1.wf x hx
    simpa using this

theorem addChannel_throws {dl : L} {s : Storage α L} {m : Matrix α L} (r : Rep dl s m) (l : L) (v : α)
    (hl : some l ∈ m.labels) :
    ∃ s', s.addChannel dl l v = (s', .throws .assertion) ∧
      Rep dl s' ⟨m.labels ++ [none], m.rows.map (· ++ [v])⟩ := by
  obtain ⟨s1, h1, r1⟩ := rep_resize r m.rows.length (m.labels.length + 1) v (by omega) (by omega)
  simp only [Nat.add_sub_cancel_left, Nat.sub_self, List.replicate_zero, List.append_nil, List.replicate_one] at r1
  refine ⟨s1, ?_, r1⟩
  unfold addChannel
  rw [r.frames, r.channels, h1]
  simp only [Header.set_last_throws r1.labels _ l (by simp [hl])]

theorem rep_put {dl : L} {s : Storage α L} {m : Matrix α L} (r : Rep dl s m) (f c : Nat) (x : α)
    (hf : f < m.rows.length) (hc : c < m.labels.length) :
    ∃ s', s.put f c x = .ok s' ∧ Rep dl s' ⟨m.labels, m.rows.modify f (·.set c x)⟩ := by
  have hb : f * s.channels + c < s.data.length := by
    rw [r.dataLength, r.channels]; exact flat_bound f c _ _ hf hc
  refine ⟨{ s with data := s.data.set (f * s.channels + c) x }, ?_, ?_⟩
  · unfold put vset
    rw [if_pos hb]
    rfl
  · refine ⟨by simp [r.frames], r.labels, ?_, modify_lengths _ _ r.wf f c x⟩
    simp only
    rw [r.data, r.channels, flatten_set _ _ r.wf f c hc]

theorem rep_addFrame {dl : L} {s : Storage α L} {m : Matrix α L} (r : Rep dl s m) (v : α) :
    Rep dl (s.addFrame v) ⟨m.labels, m.rows ++ [List.replicate m.labels.length v]⟩ := by
  refine ⟨by simp [addFrame, r.frames], r.labels, ?_, ?_⟩
  · simp only [addFrame]
    rw [vresize_grow _ _ _ (by omega), r.data, r.channels, Nat.add_sub_cancel_left]
    simp
  · intro x hx
    rcases List.mem_append.1 hx with hx | hx
    · exact r.wf x hx
    · simp only [List.mem_singleton] at hx; rw [hx]; simp

theorem rep_addFrameData {dl : L} {s : Storage α L} {m : Matrix α L} (r : Rep dl s m) (dv : α) (xs : List α)
    (hx : xs.length = m.labels.length) :
    ∃ s', s.addFrameData dv xs = .ok s' ∧ Rep dl s' ⟨m.labels, m.rows ++ [xs]⟩ := by
  unfold addFrameData
  rw [if_pos (by rw [r.channels]; exact hx)]
  refine ⟨_, rfl, by simp [r.frames], r.labels, ?_, ?_⟩
  · simp only
    rw [vresize_grow _ _ _ (by omega), Nat.add_sub_cancel_left, List.length_append, List.length_replicate,
      Nat.add_sub_cancel, List.take_left, r.data]
    simp
  · intro y hy
    rcases List.mem_append.1 hy with hy | hy
    · exact r.wf y hy
    · simp only [List.mem_singleton] at hy; rw [hy]; exact hx

theorem getElem?_modify_other {β : Type} (l : List β) (k i : Nat) (f : β → β) (h : k ≠ i) :
    (l.modify k f)[i]? = l[i]? := by
  rw [List.getElem?_modify]
  simp only [h, if_false]
  cases l[i]? <;> rfl

/-- Writing `xs` to a column from row `k` on. -/
theorem rep_putColumn {dl : L} (labels : List (Option L)) (c : Nat) (hc : c < labels.length) (xs : List α) (k : Nat)
    {s : Storage α L} {rows : List (List α)} (r : Rep dl s ⟨labels, rows⟩) (hk : k + xs.length ≤ rows.length) :
    ∃ s' rows', putColumn c k xs s = .ok s' ∧ Rep dl s' ⟨labels, rows'⟩ ∧ rows'.length = rows.length ∧
      ∀ i, rows'[i]? = if k ≤ i ∧ i < k + xs.length then
        rows[i]?.bind (fun row => xs[i - k]?.map (fun x => row.set c x)) else rows[i]? := by
  induction xs generalizing k s rows with
  | nil =>
    refine ⟨s, rows, rfl, r, rfl, ?_⟩
    intro i
    rw [if_neg (by simp)]
  | cons x xs ih =>
    simp only [List.length_cons] at hk
    obtain ⟨s1, h1, r1⟩ := rep_put r k c x (by simp only; omega) hc
    obtain ⟨s2, rows2, h2, r2, hl2, h3⟩ := ih (k + 1) r1 (by simp only [List.length_modify]; omega)
    refine ⟨s2, rows2, by simp only [putColumn, h1, Res.bind_ok]; exact h2, r2, by rw [hl2]; simp, ?_⟩
    intro i
    rw [h3 i]
    simp only [List.length_cons]
    by_cases hik : i = k
    · subst hik
      rw [if_neg (by omega), if_pos (by omega), List.getElem?_modify_eq]
      simp only [Nat.sub_self, List.getElem?_cons_zero, Option.map_some]
      cases rows[i]? <;> rfl
    · by_cases hin : k + 1 ≤ i ∧ i < k + 1 + xs.length
      · rw [if_pos hin, if_pos (by omega), getElem?_modify_other _ _ _ _ (by omega)]
        rw [show i - k = (i - (k + 1)) + 1 by omega, List.getElem?_cons_succ]
      · rw [if_neg hin, if_neg (by omega), getElem?_modify_other _ _ _ _ (by omega)]

theorem rep_addChannelData {dl : L} {s : Storage α L} {m : Matrix α L} (r : Rep dl s m) (dv : α) (l : L)
    (xs : List α) (hl : some l ∉ m.labels) :
    ∃ s', s.addChannelData dl dv l xs = .ok s' ∧
      Rep dl s' ⟨m.labels ++ [some l],
        (List.range (max m.rows.length xs.length)).map fun i =>
          m.rows.getD i (List.replicate m.labels.length dv) ++ [xs.getD i dv]⟩ := by
  obtain ⟨s1, h1, r1⟩ := rep_resize r (max m.rows.length xs.length) (m.labels.length + 1) dv (by omega) (by omega)
  simp only [Nat.add_sub_cancel_left, List.replicate_one] at r1
  obtain ⟨h', e2, r2⟩ := Header.rep_set_last r1.labels l hl
  have hc1 : s1.channels - 1 = m.labels.length := by rw [r1.channels]; simp
  have r3 : Rep dl { s1 with labels := h' } ⟨m.labels ++ [some l],
      m.rows.map (· ++ [dv]) ++ List.replicate (max m.rows.length xs.length - m.rows.length)
        (List.replicate (m.labels.length + 1) dv)⟩ := by
    refine ⟨r1.frames, r2, r1.data, ?_⟩
    intro x hx
    have := r1.wf x hx
    simpa using this
  obtain ⟨s4, rows4, h4, r4, hl4, h5⟩ := rep_putColumn (m.labels ++ [some l]) m.labels.length (by simp) xs 0 r3
    (by simp; omega)
  have hc3 : ({ s1 with labels := h' } : Storage α L).channels - 1 = m.labels.length := by
    rw [r3.channels]; simp
  refine ⟨s4, ?_, ?_⟩
  · unfold addChannelData
    rw [r.frames, r.channels, h1]
    simp only [Res.bind_ok, hc1, e2, hc3]
    exact h4
  · have : rows4 = (List.range (max m.rows.length xs.length)).map fun i =>
        m.rows.getD i (List.replicate m.labels.length dv) ++ [xs.getD i dv] := by
      apply List.ext_getElem?
      intro i
      rw [h5 i]
      simp only [Nat.zero_add, Nat.zero_le, true_and, Nat.sub_zero]
      have hlen0 : (m.rows.map (· ++ [dv])).length = m.rows.length := by simp
      by_cases hi : i < max m.rows.length xs.length
      · have hrow : (m.rows.map (· ++ [dv]) ++ List.replicate (max m.rows.length xs.length - m.rows.length)
            (List.replicate (m.labels.length + 1) dv))[i]?
            = some (m.rows.getD i (List.replicate m.labels.length dv) ++ [dv]) := by
          by_cases hir : i < m.rows.length
          · rw [List.getElem?_append_left (by simpa using hir)]
            simp [hir]
          · rw [List.getElem?_append_right (by simpa using hir), List.getElem?_replicate,
              if_pos (by simp; omega)]
            rw [List.replicate_succ']
            simp [List.getD_eq_getElem?_getD, List.getElem?_eq_none (by omega : m.rows.length ≤ i)]
        have hw : (m.rows.getD i (List.replicate m.labels.length dv)).length = m.labels.length := by
          by_cases hir : i < m.rows.length
          · simp only [List.getD_eq_getElem?_getD, List.getElem?_eq_getElem hir, Option.getD_some]
            exact r.wf _ (List.getElem_mem _)
          · simp [List.getD_eq_getElem?_getD, List.getElem?_eq_none (by omega : m.rows.length ≤ i)]
        rw [hrow, List.getElem?_map, List.getElem?_range hi]
        simp only [Option.map_some]
        by_cases hix : i < xs.length
        · rw [if_pos hix, List.getElem?_eq_getElem hix]
          simp only [Option.bind_some, Option.map_some]
          rw [List.set_append_right _ _ (by omega), hw, Nat.sub_self]
          simp [List.getD_eq_getElem?_getD, hix]
        · rw [if_neg hix]
          simp [List.getD_eq_getElem?_getD, List.getElem?_eq_none (by omega : xs.length ≤ i)]
      · rw [if_neg (by omega)]
        rw [List.getElem?_eq_none (by simp; omega), List.getElem?_eq_none (by simp; omega)]
    rw [← this]
    exact r4

theorem addChannelData_throws {dl : L} {s : Storage α L} {m : Matrix α L} (r : Rep dl s m) (dv : α) (l : L)
    (xs : List α) (hl : some l ∈ m.labels) : s.addChannelData dl dv l xs = .throws .assertion := by
  obtain ⟨s1, h1, r1⟩ := rep_resize r (max m.rows.length xs.length) (m.labels.length + 1) dv (by omega) (by omega)
  unfold addChannelData
  rw [r.frames, r.channels, h1]
  simp only [Res.bind_ok]
  rw [Header.set_last_throws r1.labels _ l (by simp [hl])]
  rfl

theorem rep_run {dl : L} {s : Storage α L} {m : Matrix α L} (dv : α) (r : Rep dl s m) (op : Op α L) :
    Agree (Rep dl) (s.run dl dv op) (m.step dv op) := by
  cases op with
  | addChannel l v =>
    simp only [run, Matrix.step]
    by_cases hl : some l ∈ m.labels
    · obtain ⟨s', h1, _⟩ := addChannel_throws r l v hl
      rw [h1, if_pos hl]; rfl
    · obtain ⟨s', h1, h2⟩ := rep_addChannel r l v hl
      rw [h1, if_neg hl]; exact h2
  | addChannelData l xs =>
    simp only [run, Matrix.step]
    by_cases hl : some l ∈ m.labels
    · rw [addChannelData_throws r dv l xs hl, if_pos hl]; rfl
    · obtain ⟨s', h1, h2⟩ := rep_addChannelData r dv l xs hl
      rw [h1, if_neg hl]; exact h2
  | addFrame v => exact rep_addFrame r v
  | addFrameData xs =>
    simp only [run, Matrix.step]
    by_cases hx : xs.length = m.labels.length
    · obtain ⟨s', h1, h2⟩ := rep_addFrameData r dv xs hx
      rw [h1]
      show Agree _ _ (if xs.length = m.labels.length then _ else _)
      rw [if_pos hx]; exact h2
    · unfold addFrameData
      rw [if_neg (by rw [r.channels]; exact hx)]
      show Agree _ _ (if xs.length = m.labels.length then _ else _)
      rw [if_neg hx]; rfl
  | resize nf nc v =>
    simp only [run, Matrix.step]
    by_cases h : nf < m.rows.length ∨ nc < m.labels.length
    · unfold Storage.resize
      rw [if_pos (by rw [r.frames, r.channels]; exact h)]
      show Agree _ _ (if nf < m.rows.length ∨ nc < m.labels.length then _ else _)
      rw [if_pos h]; rfl
    · obtain ⟨s', h1, h2⟩ := rep_resize r nf nc v (by omega) (by omega)
      rw [h1]
      show Agree _ _ (if nf < m.rows.length ∨ nc < m.labels.length then _ else _)
      rw [if_neg h]; exact h2
  | put f c x =>
    simp only [run, Matrix.step, putAt]
    by_cases h : f < m.rows.length ∧ c < m.labels.length
    · obtain ⟨s', h1, h2⟩ := rep_put r f c x h.1 h.2
      rw [if_pos (by rw [r.frames, r.channels]; exact h), h1]
      show Agree _ _ (if f < m.rows.length ∧ c < m.labels.length then _ else _)
      rw [if_pos h]; exact h2
    · rw [if_neg (by rw [r.frames, r.channels]; exact h)]
      show Agree _ _ (if f < m.rows.length ∧ c < m.labels.length then _ else _)
      rw [if_neg h]; rfl
  | clear => exact ⟨rfl, Header.rep_clear dl, rfl, by simp⟩

theorem rep_runAll {dl : L} (dv : α) (ops : List (Op α L)) {s : Storage α L} {m : Matrix α L} (r : Rep dl s m) :
    Agree (Rep dl) (s.runAll dl dv ops) (m.run dv ops) := by
  induction ops generalizing s m with
  | nil => exact r
  | cons op ops ih => exact Agree.bind (rep_run dv r op) (fun a b hab => ih hab)

theorem rep_findOrAdd {dl : L} {s : Storage α L} {m : Matrix α L} (r : Rep dl s m) (l : L) (v : α) :
    (∀ i, m.labels.findIdx? (· = some l) = some i → s.findOrAddChannel dl l v = .ok (i, s)) ∧
    (some l ∉ m.labels → ∃ s', s.findOrAddChannel dl l v = .ok (m.labels.length, s') ∧
      Rep dl s' ⟨m.labels ++ [some l], m.rows.map (· ++ [v])⟩) := by
  constructor
  · intro i hi
    unfold findOrAddChannel findChannel
    rw [Header.find_eq, r.labels.find, hi]
    rfl
  · intro hl
    obtain ⟨s', h1, h2⟩ := rep_addChannel r l v hl
    refine ⟨s', ?_, h2⟩
    unfold findOrAddChannel findChannel
    rw [Header.find_eq, (r.labels.fresh l).2 hl]
    simp only [Res.bind_ok]
    rw [h1]
    rfl

end Storage

end Flut
