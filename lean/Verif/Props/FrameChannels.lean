import Verif.Props.Data

/-! # Property theorems: resizing a `circular_frame_buffer` and adding channels (C34) -/

namespace Flut

variable {α L : Type} [DecidableEq L]

theorem FrameBuf.get_replicate {b : FrameBuf α L} {n : Nat} {v : α} (hn : 0 < n) (h1 : b.bufSize = n)
    (h2 : b.data = List.replicate (n * b.channels) v) (f c : Nat) (hc : c < b.channels) : b.get f c = .ok v := by
  unfold FrameBuf.get FrameBuf.slot CDeque.modC
  rw [h1, if_neg (by omega)]
  simp only [Res.bind_ok]
  apply vget_eq
  rw [h2, List.getElem?_replicate, if_pos]
  have : f % n + 1 ≤ n := Nat.mod_lt _ hn
  have := Nat.mul_le_mul_right b.channels this
  rw [Nat.add_mul] at this
  omega

/-- `resize_buffer` keeps the number of frames that were added, gives the buffer the new sizes, and makes every value the given one.
The number of channels cannot become smaller. -/
theorem C34_resize (dl : L) (b : FrameBuf α L) (n ch : Nat) (v : α) :
    (b.channels ≤ ch → ∃ b', b.resizeBuffer dl n ch v = .ok b' ∧ b'.frames = b.frames ∧ b'.channels = ch ∧
      ∀ f c, 0 < n → c < ch → b'.get f c = .ok v) ∧
    (ch < b.channels → b.resizeBuffer dl n ch v = .throws .assertion) := by
  constructor
  · intro h
    have e : b.labels.resize dl ch = .ok { b.labels with labels := vresize b.labels.labels ch dl } := if_pos h
    have hs : (vresize b.labels.labels ch dl).length = ch := by
      have : b.labels.labels.length ≤ ch := h
      unfold vresize
      rw [List.length_append, List.length_take, List.length_replicate]
      omega
    refine ⟨⟨{ b.labels with labels := vresize b.labels.labels ch dl }, List.replicate (n * ch) v, n, b.frames⟩,
      by unfold FrameBuf.resizeBuffer; rw [e]; rfl, rfl, hs, fun f c hn hc => ?_⟩
    exact FrameBuf.get_replicate hn rfl (by
      show _ = List.replicate (n * (vresize b.labels.labels ch dl).length) v
      rw [hs]) f c (by show c < (vresize b.labels.labels ch dl).length; omega)
  · intro h
    have e : b.labels.resize dl ch = .throws .assertion := if_neg (by unfold FrameBuf.channels at h; omega)
    unfold FrameBuf.resizeBuffer
    rw [e]; rfl

/-- The other `resize_buffer`, which keeps the channels and their labels. -/
theorem C34_resize_frames (b : FrameBuf α L) (n : Nat) (v : α) :
    (b.resizeFrames n v).frames = b.frames ∧ (b.resizeFrames n v).labels = b.labels ∧
    ∀ f c, 0 < n → c < b.channels → (b.resizeFrames n v).get f c = .ok v :=
  ⟨rfl, rfl, fun f c hn hc => FrameBuf.get_replicate (b := b.resizeFrames n v) hn rfl rfl f c hc⟩

/-- After either, writing and reading go on as before: for a buffer of `n` frames and every legal history from there. -/
theorem C34_resize_then (dl : L) (b b' : FrameBuf α L) (n ch f c : Nat) (v x : α) (h : b.resizeBuffer dl n ch v = .ok b') (hn : 0 < n)
    (hc : c < ch) : ∃ b'', b'.put f c x = .ok b'' ∧ b''.get f c = .ok x ∧
      ∀ f' c', c' < ch → (f' % n ≠ f % n ∨ c' ≠ c) → b''.get f' c' = .ok v := by
  rcases Nat.lt_or_ge ch b.channels with hlt | hge
  · rw [(C34_resize dl b n ch v).2 hlt] at h; cases h
  have e : b.labels.resize dl ch = .ok { b.labels with labels := vresize b.labels.labels ch dl } := if_pos hge
  unfold FrameBuf.resizeBuffer at h
  rw [e] at h
  cases h
  have hs : (vresize b.labels.labels ch dl).length = ch := by
    have : b.labels.labels.length ≤ ch := hge
    unfold vresize
    rw [List.length_append, List.length_take, List.length_replicate]
    omega
  have lt : ∀ f c, c < ch → f % n * ch + c < n * ch := by
    intro f c hc
    have : f % n + 1 ≤ n := Nat.mod_lt _ hn
    have := Nat.mul_le_mul_right ch this
    rw [Nat.add_mul] at this
    omega
  have sl : ∀ f c, (⟨{ b.labels with labels := vresize b.labels.labels ch dl }, List.replicate (n * ch) v, n, b.frames⟩ : FrameBuf α L).slot f c =
      .ok (f % n * ch + c) := by
    intro f c
    unfold FrameBuf.slot CDeque.modC
    rw [if_neg (by show ¬ n = 0; omega)]
    show Res.ok (f % n * (vresize b.labels.labels ch dl).length + c) = _
    rw [hs]
  have sl' : ∀ d f c, (⟨{ b.labels with labels := vresize b.labels.labels ch dl }, d, n, b.frames⟩ : FrameBuf α L).slot f c =
      .ok (f % n * ch + c) := fun _ f c => sl f c
  refine ⟨⟨{ b.labels with labels := vresize b.labels.labels ch dl }, (List.replicate (n * ch) v).set (f % n * ch + c) x, n, b.frames⟩,
    ?_, ?_, ?_⟩
  · unfold FrameBuf.put
    have hv : vset (List.replicate (n * ch) v) (f % n * ch + c) x = .ok ((List.replicate (n * ch) v).set (f % n * ch + c) x) :=
      if_pos (by rw [List.length_replicate]; exact lt f c hc)
    simp only [sl, Res.bind_ok, hv]
  · unfold FrameBuf.get
    rw [sl']
    exact vget_eq (by rw [List.getElem?_set_self (by rw [List.length_replicate]; exact lt f c hc)])
  · intro f' c' hc' hne
    unfold FrameBuf.get
    rw [sl']
    refine vget_eq ?_
    rw [List.getElem?_set_ne, List.getElem?_replicate, if_pos (lt f' c' hc')]
    intro he
    obtain ⟨h1, h2⟩ := FrameBuf.slot_inj ch _ _ _ _ hc hc' he
    rcases hne with h | h
    · exact h h1.symm
    · exact h h2.symm

/-- The labels of channels after some more were asked for. -/
def FrameSpec.labelled (ls : List (Option L)) : List L → List (Option L)
  | [] => ls
  | l :: rest => FrameSpec.labelled (if some l ∈ ls then ls else ls ++ [some l]) rest

theorem findIdx?_mem {ls : List (Option L)} {l : L} (h : some l ∈ ls) : ∃ i, ls.findIdx? (· = some l) = some i := by
  rcases hi : ls.findIdx? (· = some l) with _ | i
  · rw [Header.findIdx?_eq_none] at hi; exact absurd h hi
  · exact ⟨i, rfl⟩

theorem findOrAdd_rep {dl : L} (dv : α) {b : FrameBuf α L} {ls : List (Option L)} (r : Header.Rep dl b.labels ls) (l : L) :
    ∃ i b', b.findOrAddChannel dl dv l = .ok (i, b') ∧ b'.frames = b.frames ∧
      Header.Rep dl b'.labels (if some l ∈ ls then ls else ls ++ [some l]) ∧
      (if some l ∈ ls then ls else ls ++ [some l]).findIdx? (· = some l) = some i ∧
      (some l ∈ ls → b' = b) ∧ (some l ∉ ls → ∀ f c, 0 < b.frames → c < ls.length + 1 → b'.get f c = .ok dv) := by
  have hf : b.findChannel l = .ok (ls.findIdx? (· = some l)) := r.shows.find l
  unfold FrameBuf.findOrAddChannel
  rw [hf]
  by_cases hl : some l ∈ ls
  · obtain ⟨i, hi⟩ := findIdx?_mem hl
    rw [hi, if_pos hl]
    exact ⟨i, b, rfl, rfl, r, hi, fun _ => rfl, fun h => absurd hl h⟩
  · rw [(Header.findIdx?_eq_none ls l).2 hl, if_neg hl]
    obtain ⟨h1, e1, r1⟩ := Header.rep_resize r (ls.length + 1) (by omega)
    rw [show ls.length + 1 - ls.length = 1 by omega, List.replicate_one] at r1
    obtain ⟨h', e2, r2⟩ := Header.rep_set_last r1 l hl
    have hs := r1.size
    have hs2 := r2.size
    have hch : b.channels = ls.length := r.size
    simp only [List.length_append, List.length_cons, List.length_nil, Nat.zero_add] at hs hs2
    refine ⟨ls.length, ⟨h', List.replicate (b.frames * (ls.length + 1)) dv, b.frames, b.frames⟩, ?_, rfl, r2, ?_, fun h => absurd h hl, fun _ => ?_⟩
    · simp only [Res.bind_ok, FrameBuf.addChannel, FrameBuf.resizeBuffer, hch, e1]
      have : (⟨h1, List.replicate (b.frames * (ls.length + 1)) dv, b.frames, b.frames⟩ : FrameBuf α L).channels - 1 = ls.length := by
        show h1.size - 1 = _; omega
      rw [this, e2]; rfl
    · rw [List.findIdx?_append, (Header.findIdx?_eq_none ls l).2 hl]
      simp [List.findIdx?_cons]
    · intro f c h0 hc
      refine FrameBuf.get_replicate (b := ⟨h', List.replicate (b.frames * (ls.length + 1)) dv, b.frames, b.frames⟩) h0 rfl ?_ f c ?_
      · show _ = List.replicate (b.frames * h'.size) dv
        rw [hs2]
      · show c < h'.size
        omega

theorem labelled_prefix (ls : List (Option L)) (names : List L) : ls <+: FrameSpec.labelled ls names := by
  induction names generalizing ls with
  | nil => exact List.prefix_rfl
  | cons l rest ih =>
    refine List.IsPrefix.trans ?_ (ih _)
    by_cases h : some l ∈ ls
    · rw [if_pos h]; exact List.prefix_rfl
    · rw [if_neg h]; exact List.prefix_append _ _

theorem findIdx?_prefix {ls ls' : List (Option L)} {l : L} {i : Nat} (h : ls <+: ls') (hi : ls.findIdx? (· = some l) = some i) :
    ls'.findIdx? (· = some l) = some i := by
  obtain ⟨t, rfl⟩ := h
  rw [List.findIdx?_append, hi]; rfl

/-- Asking for channels by name. Whatever the history of a buffer and whatever names are asked for, each gets a channel with that label, the
same name always the same channel, and new names the next numbers. -/
theorem C34_find_or_add (dl : L) (dv : α) (n ch : Nat) (names : List L) (ops : List (FrameBuf.Op α))
    (h : FrameSpec.Legal n ch ops) :
    ∃ (b : FrameBuf α L) (is : List Nat) (b' : FrameBuf α L), FrameBuf.runAll ops (FrameBuf.new dl dv ch n) = .ok b ∧
      b.channelsOf dl dv names = .ok (is, b') ∧
      HeaderShows dl b'.labels (FrameSpec.labelled (List.replicate ch none) names) ∧ b'.frames = FrameSpec.frames ops ∧
      is.map some = names.map (fun l => (FrameSpec.labelled (List.replicate ch none) names).findIdx? (· = some l)) ∧
      ∀ p ∈ names.zip is, b'.getLabel p.2 = .ok p.1 ∧ b'.findChannel p.1 = .ok (some p.2) := by
  obtain ⟨b, h1, r⟩ := FrameBuf.rep_runAll ops (FrameBuf.rep_new (L := L) dl dv ch n) (by simpa using h)
  simp only [List.nil_append] at r
  have hlab : ∀ (ops : List (FrameBuf.Op α)) (b b' : FrameBuf α L), FrameBuf.runAll ops b = .ok b' → b'.labels = b.labels := by
    intro ops
    induction ops with
    | nil => intro b b' h; cases h; rfl
    | cons op ops ih =>
      intro b b' h
      unfold FrameBuf.runAll at h
      cases op with
      | addFrame => exact (ih _ _ h :)
      | put f c x =>
        simp only [FrameBuf.run, FrameBuf.put] at h
        rcases h2 : b.slot f c with i | _ | _ | _ <;> rw [h2] at h <;> try cases h
        simp only [Res.bind_ok] at h
        rcases h3 : vset b.data i x with d | _ | _ | _ <;> rw [h3] at h <;> try cases h
        exact (ih _ _ h :)
  have hr : Header.Rep dl b.labels (List.replicate ch none) := by
    rw [hlab _ _ _ h1]; exact Header.rep_new dl ch
  have key : ∀ (names : List L) (ls : List (Option L)) (b : FrameBuf α L), Header.Rep dl b.labels ls →
      ∃ is b', b.channelsOf dl dv names = .ok (is, b') ∧ Header.Rep dl b'.labels (FrameSpec.labelled ls names) ∧ b'.frames = b.frames ∧
        is.map some = names.map (fun l => (FrameSpec.labelled ls names).findIdx? (· = some l)) := by
    intro names
    induction names with
    | nil => intro ls b r; exact ⟨[], b, rfl, r, rfl, rfl⟩
    | cons l rest ih =>
      intro ls b r
      obtain ⟨i, b1, e1, f1, r1, i1, _⟩ := findOrAdd_rep dv r l
      obtain ⟨is, b2, e2, r2, f2, i2⟩ := ih _ b1 r1
      refine ⟨i :: is, b2, by simp only [FrameBuf.channelsOf, e1, Res.bind_ok, e2], r2, f2.trans f1, ?_⟩
      rw [List.map_cons, List.map_cons]
      congr 1
      exact (findIdx?_prefix (labelled_prefix _ rest) i1).symm
  obtain ⟨is, b', e, r', f', i'⟩ := key names _ b hr
  refine ⟨b, is, b', h1, e, r'.shows, f'.trans r.frames, i', ?_⟩
  rintro ⟨l, i⟩ hp
  have hi : (FrameSpec.labelled (List.replicate ch none) names).findIdx? (· = some l) = some i := by
    obtain ⟨k, hk, he⟩ := List.mem_iff_getElem.1 hp
    rw [List.getElem_zip] at he
    have hk1 : k < names.length := by rw [List.length_zip] at hk; omega
    have hk2 : k < is.length := by rw [List.length_zip] at hk; omega
    have : (is.map some)[k]? = (names.map (fun l => (FrameSpec.labelled (List.replicate ch none) names).findIdx? (· = some l)))[k]? := by
      rw [i']
    rw [List.getElem?_map, List.getElem?_map, List.getElem?_eq_getElem hk1, List.getElem?_eq_getElem hk2] at this
    simp only [Option.map_some, Option.some.injEq] at this
    cases he
    exact this.symm
  refine ⟨?_, by rw [← hi]; exact r'.shows.find l⟩
  have hlt := findIdx?_lt _ _ _ hi
  have hl := findIdx?_label _ _ _ hi
  rw [List.getElem?_eq_getElem hlt] at hl
  have := r'.shows.get i hlt
  show b'.labels.get i = _
  rw [this]
  simp only [Option.some.injEq] at hl
  rw [hl]; rfl

/-- Adding a channel loses all values that were written, also those of the other channels. -/
theorem C34_add_channel_keeps_refuted : ∃ b b' : FrameBuf Nat Str,
    FrameBuf.runAll [.addFrame, .put 0 0 10] (FrameBuf.new b!"" 0 1 2) = .ok b ∧ b.get 0 0 = .ok 10 ∧
    b.findOrAddChannel b!"" 0 b!"x" = .ok (1, b') ∧ b'.get 0 0 = .ok 0 ∧ b'.bufSize = 1 :=
  ⟨_, _, rfl, by decide +kernel, rfl, by decide +kernel, rfl⟩

/-- In general: after a name is asked for that is new, every cell has the default value. -/
theorem C34_add_channel_resets (dl : L) (dv : α) (n ch : Nat) (l : L) (t : Nat) (ht : 0 < t) :
    ∃ b b' : FrameBuf α L, FrameBuf.runAll (List.replicate t .addFrame) (FrameBuf.new dl dv ch n) = .ok b ∧
      b.findOrAddChannel dl dv l = .ok (ch, b') ∧ ∀ f c, c ≤ ch → b'.get f c = .ok dv := by
  have h1 : ∀ (t : Nat) (b : FrameBuf α L), FrameBuf.runAll (List.replicate t .addFrame) b = .ok { b with frames := b.frames + t } := by
    intro t
    induction t with
    | zero => intro b; rfl
    | succ t ih =>
      intro b
      rw [List.replicate_succ]
      show FrameBuf.runAll (List.replicate t .addFrame) { b with frames := b.frames + 1 } = _
      rw [ih, Nat.add_right_comm]; rfl
  have hr : Header.Rep dl (FrameBuf.new dl dv ch n : FrameBuf α L).labels (List.replicate ch none) := Header.rep_new dl ch
  have hl : some l ∉ List.replicate ch (none : Option L) := by simp
  obtain ⟨i, b', e, _, _, hi, _, hg⟩ := findOrAdd_rep dv (b := { FrameBuf.new dl dv ch n with frames := 0 + t }) hr l
  rw [if_neg hl, List.findIdx?_append, (Header.findIdx?_eq_none _ l).2 hl] at hi
  have hi' : i = ch := by simpa [List.findIdx?_cons] using hi.symm
  subst hi'
  refine ⟨_, b', h1 t _, e, fun f c hc => hg hl f c (by show 0 < 0 + t; omega) (by rw [List.length_replicate]; omega)⟩

/-! Concrete cases. -/

example : FrameSpec.labelled [none] [b!"x", b!"y", b!"x"] = [none, some b!"x", some b!"y"] := by decide

example : ∃ b', (FrameBuf.new b!"" 0 1 2 : FrameBuf Nat Str).channelsOf b!"" 0 [b!"x", b!"y", b!"x"] = .ok ([1, 2, 1], b') ∧
    b'.getLabel 2 = .ok b!"y" ∧ b'.findChannel b!"z" = .ok none := ⟨_, rfl, rfl, by decide +kernel⟩

example : ((FrameBuf.new b!"" 0 1 2 : FrameBuf Nat Str).resizeBuffer b!"" 3 2 7 >>= FrameBuf.put 4 1 8 >>= FrameBuf.get 1 1) = .ok 8 ∧
    ((FrameBuf.new b!"" 0 1 2 : FrameBuf Nat Str).resizeBuffer b!"" 3 2 7 >>= FrameBuf.put 4 1 8 >>= FrameBuf.get 2 1) = .ok 7 := by
  decide +kernel

end Flut
