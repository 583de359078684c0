import Verif.Spec.StreamLife
import Verif.Spec.Data
import Verif.Proofs.CharStreamOps

/-! # Lemmas about the memory that streams read from -/

namespace Flut

open Spec CharStream

theorem ask_spec (bits : Nat) (op : StreamOp) (s s' : CharStream) (a : StreamAns) (hi : EofInv s) (h : op.ask bits s = .ok (a, s')) :
    Forward s s' ∧ EofInv s' := by
  cases op with
  | token o q =>
    simp only [StreamOp.ask] at h
    rcases getToken_spec s o q with h1 | ⟨t, s1, h1, h2, h3⟩
    · rw [h1] at h; cases h
    · rw [h1, Res.bind_ok] at h; cases h; exact ⟨h2, h3⟩
  | line => cases h; exact processEnd_spec s _ hi
  | long => cases h; exact processEnd_spec s _ hi
  | peekc => cases h; exact ⟨Forward.refl _, hi⟩
  | str =>
    simp only [StreamOp.ask, readStr] at h
    split at h
    · cases h
    · cases h; exact processEnd_spec s _ hi
  | getc =>
    simp only [StreamOp.ask] at h
    split at h
    · unfold CharStream.getc at h
      split at h
      · cases h
      · rename_i c cs hr
        cases h
        exact ⟨Forward.trans (b := { s with rest := cs }) ⟨⟨[c], by simp [hr]⟩, id, id, rfl⟩ (testEof_spec { s with rest := cs }).1, (testEof_spec _).2⟩
    · cases h; exact ⟨Forward.refl _, hi⟩

/-- A call made through `ask` leaves the state that `run` gives. -/
theorem ask_run (bits : Nat) (op : StreamOp) (s : CharStream) : op.run bits s = (do let r ← op.ask bits s; .ok r.2) := by
  cases op with
  | token o q => simp only [StreamOp.run, StreamOp.ask]; cases s.getToken o q <;> rfl
  | str => simp only [StreamOp.run, StreamOp.ask]; cases s.readStr <;> rfl
  | getc => simp only [StreamOp.run, StreamOp.ask]; cases s.getc <;> split <;> rfl
  | _ => rfl

/-! ## Blocks and their keepers -/

/-- The blocks, and which of them belong to whom. -/
structure Ground where
  next : Nat
  block : Nat → Option Str
  home : Keeper → Option Nat

namespace Ground

/-- Blocks that belong to someone are allocated, and belong to no one else. -/
structure Good (g : Ground) : Prop where
  kept : ∀ k b, g.home k = some b → b < g.next ∧ ∃ t, g.block b = some t
  unique : ∀ k k' b, g.home k = some b → g.home k' = some b → k = k'

/-- The pointers of a stream show its value. -/
def Fits (g : Ground) (o : StreamObj) (x : StreamVal) : Prop :=
  o.buf < g.next ∧ EofInv x.state ∧ match x.keeper with
    | none => g.block o.buf = none
    | some k => g.home k = some o.buf ∧ ∃ t, g.block o.buf = some t ∧ o.len ≤ t.length ∧ o.pos ≤ o.len ∧
      x.state = ⟨(t.take o.len).drop o.pos, o.delims, o.fail, o.eof⟩

/-- A new block for someone who had none. -/
def add (k : Keeper) (text : Str) (g : Ground) : Ground :=
  ⟨g.next + 1, fun b => if b = g.next then some text else g.block b, fun k' => if k' = k then some g.next else g.home k'⟩

/-- The block of someone is freed. -/
def remove (k : Keeper) (b : Nat) (g : Ground) : Ground :=
  ⟨g.next, fun b' => if b' = b then none else g.block b', fun k' => if k' = k then none else g.home k'⟩

theorem Good.add {g : Ground} (h : g.Good) {k : Keeper} (text : Str) : (g.add k text).Good := by
  have hlt := fun k b h' => (h.kept k b h').1
  refine ⟨?_, ?_⟩
  · intro k' b hb
    simp only [Ground.add] at hb ⊢
    split at hb
    · cases hb
      exact ⟨by omega, text, if_pos rfl⟩
    · obtain ⟨h1, t, h2⟩ := h.kept k' b hb
      exact ⟨by omega, t, by rw [if_neg (by omega), h2]⟩
  · intro k1 k2 b h1 h2
    simp only [Ground.add] at h1 h2
    split at h1 <;> split at h2
    · simp_all
    · cases h1; have := hlt _ _ h2; omega
    · cases h2; have := hlt _ _ h1; omega
    · exact h.unique _ _ _ h1 h2

theorem Fits.add {g : Ground} {k : Keeper} (hk : g.home k = none) (text : Str) {o : StreamObj} {x : StreamVal} (hf : g.Fits o x) : (g.add k text).Fits o x := by
  obtain ⟨h1, h2, h3⟩ := hf
  refine ⟨by simp only [Ground.add]; omega, h2, ?_⟩
  cases hx : x.keeper with
  | none =>
    simp only [hx] at h3 ⊢
    simp only [Ground.add]
    rw [if_neg (by omega), h3]
  | some k' =>
    simp only [hx] at h3 ⊢
    obtain ⟨h4, t, h5⟩ := h3
    refine ⟨?_, t, ?_⟩
    · simp only [Ground.add]
      rw [if_neg (by rintro rfl; rw [hk] at h4; cases h4), h4]
    · simp only [Ground.add]
      rw [if_neg (by omega)]
      exact h5

theorem Good.remove {g : Ground} (h : g.Good) {k : Keeper} {b : Nat} (hk : g.home k = some b) : (g.remove k b).Good := by
  refine ⟨?_, ?_⟩
  · intro k' b' hb
    simp only [Ground.remove] at hb ⊢
    split at hb
    · cases hb
    · rename_i hne
      obtain ⟨h1, t, h2⟩ := h.kept k' b' hb
      exact ⟨h1, t, by rw [if_neg (by rintro rfl; exact hne (h.unique _ _ _ hb hk)), h2]⟩
  · intro k1 k2 b' h1 h2
    simp only [Ground.remove] at h1 h2
    split at h1
    · cases h1
    · split at h2
      · cases h2
      · exact h.unique _ _ _ h1 h2

/-- What becomes of a stream when a keeper is gone. -/
def lose1 (k : Keeper) (x : StreamVal) : StreamVal := if x.keeper = some k then { x with keeper := none } else x

theorem Fits.remove {g : Ground} (h : g.Good) {k : Keeper} {b : Nat} (hk : g.home k = some b) {o : StreamObj} {x : StreamVal} (hf : g.Fits o x) :
    (g.remove k b).Fits o (lose1 k x) := by
  obtain ⟨h1, h2, h3⟩ := hf
  unfold lose1
  by_cases hx : x.keeper = some k
  · rw [if_pos hx]
    refine ⟨h1, h2, ?_⟩
    simp only [hx] at h3
    have : o.buf = b := by rw [hk] at h3; exact (Option.some.inj h3.1).symm
    simp [Ground.remove, this]
  · rw [if_neg hx]
    refine ⟨h1, h2, ?_⟩
    cases hy : x.keeper with
    | none =>
      simp only [hy] at h3 ⊢
      simp only [Ground.remove]
      split
      · rfl
      · exact h3
    | some k' =>
      simp only [hy] at h3 ⊢
      obtain ⟨h4, t, h5⟩ := h3
      have hne : k' ≠ k := by rintro rfl; exact hx hy
      refine ⟨by simp only [Ground.remove]; rw [if_neg hne, h4], t, ?_⟩
      simp only [Ground.remove]
      rw [if_neg (by rintro e; rw [e] at h4; exact hne (h.unique _ _ _ h4 hk))]
      exact h5

end Ground

/-- The blocks of a memory, and to which stream or buffer they belong. -/
def StreamMem.ground (m : StreamMem) : Ground :=
  ⟨m.next, m.block, fun | .stream s => (m.stream s).map StreamObj.own | .buffer b => m.buffer b⟩

/-- The memory shows the values. -/
structure Shows (m : StreamMem) (v : Streams) : Prop where
  good : m.ground.Good
  stream : ∀ s, (m.stream s = none ∧ v.stream s = none) ∨ ∃ o x, m.stream s = some o ∧ v.stream s = some x ∧ m.ground.Fits o x
  buffer : ∀ b, (m.buffer b = none ∧ v.buffer b = none) ∨ ∃ k t, m.buffer b = some k ∧ v.buffer b = some t ∧ m.block k = some t

theorem Shows.empty : Shows .empty .empty :=
  ⟨⟨by rintro (s | b) k h <;> exact absurd h (by simp [StreamMem.ground, StreamMem.empty]),
    by rintro (s | b) k k' h <;> exact absurd h (by simp [StreamMem.ground, StreamMem.empty])⟩, fun _ => .inl ⟨rfl, rfl⟩, fun _ => .inl ⟨rfl, rfl⟩⟩

/-- A stream after a call, in terms of its text. -/
theorem after_fits {t : Str} {o : StreamObj} {c c' : CharStream} (hl : o.len ≤ t.length) (hp : o.pos ≤ o.len)
    (hc : c = ⟨(t.take o.len).drop o.pos, o.delims, o.fail, o.eof⟩) (hf : Forward c c') :
    (o.after c').pos ≤ o.len ∧ c' = ⟨(t.take o.len).drop (o.after c').pos, o.delims, c'.fail, c'.eof⟩ := by
  subst hc
  obtain ⟨⟨u, hu⟩, -, -, hd⟩ := hf
  simp only at hu hd
  refine ⟨Nat.sub_le _ _, ?_⟩
  have hlen : (t.take o.len).length = o.len := by rw [List.length_take]; omega
  have hlu : o.len - o.pos = u.length + c'.rest.length := by
    have := congrArg List.length hu
    rw [List.length_drop, hlen, List.length_append] at this
    exact this
  have e : (t.take o.len).drop (o.after c').pos = c'.rest := by
    have : (o.after c').pos = o.pos + u.length := by simp only [StreamObj.after]; omega
    rw [this, ← List.drop_drop, hu, List.drop_left]
  rw [e, ← hd]

theorem ground_new (m : StreamMem) (s : Nat) (text : Str) (o : StreamObj) (ho : o.own = m.next) :
    ((m.alloc text).put s (some o)).ground = m.ground.add (.stream s) text := by
  unfold StreamMem.ground Ground.add StreamMem.alloc StreamMem.put
  simp only [Ground.mk.injEq, true_and]
  funext k
  cases k with
  | stream s' => by_cases h : s' = s <;> simp [h, ho]
  | buffer b => simp

theorem ground_end (m : StreamMem) (s : Nat) (b : Nat) : ((m.free b).put s none).ground = m.ground.remove (.stream s) b := by
  unfold StreamMem.ground Ground.remove StreamMem.free StreamMem.put
  simp only [Ground.mk.injEq, true_and]
  funext k
  cases k with
  | stream s' => by_cases h : s' = s <;> simp [h]
  | buffer b => simp

theorem ground_same (m : StreamMem) (s : Nat) (o o' : StreamObj) (h : m.stream s = some o) (ho : o'.own = o.own) :
    (m.put s (some o')).ground = m.ground := by
  unfold StreamMem.ground StreamMem.put
  simp only [Ground.mk.injEq, true_and]
  funext k
  cases k with
  | stream s' => by_cases e : s' = s <;> simp [e, h, ho]
  | buffer b => rfl

theorem streams_put_put (m : StreamMem) (s : Nat) (o o' : Option StreamObj) : (m.put s o).put s o' = m.put s o' := by
  unfold StreamMem.put
  simp only [StreamMem.mk.injEq, true_and]
  funext k
  by_cases h : k = s <;> simp [h]

/-- The streams that a block is not taken from. -/
theorem Shows.put_stream {m : StreamMem} {v : Streams} {m' : StreamMem} {v' : Streams} (h : Shows m v) (hg : m'.ground.Good) (s : Nat)
    (hs : (m'.stream s = none ∧ v'.stream s = none) ∨ ∃ o x, m'.stream s = some o ∧ v'.stream s = some x ∧ m'.ground.Fits o x)
    (hm : ∀ s' ≠ s, m'.stream s' = m.stream s') (f : StreamVal → StreamVal) (hv : ∀ s' ≠ s, v'.stream s' = (v.stream s').map f)
    (hf : ∀ o x, m.ground.Fits o x → m'.ground.Fits o (f x))
    (hb : ∀ b, (m'.buffer b = none ∧ v'.buffer b = none) ∨ ∃ k t, m'.buffer b = some k ∧ v'.buffer b = some t ∧ m'.block k = some t) : Shows m' v' := by
  refine ⟨hg, fun s' => ?_, hb⟩
  by_cases e : s' = s
  · subst e; exact hs
  · rw [hm s' e, hv s' e]
    rcases h.stream s' with ⟨h1, h2⟩ | ⟨o, x, h1, h2, h3⟩
    · exact .inl ⟨h1, by rw [h2]; rfl⟩
    · exact .inr ⟨o, f x, h1, by rw [h2]; rfl, hf o x h3⟩

theorem Shows.buffers_add {m : StreamMem} {v : Streams} (h : Shows m v) (text : Str) (b : Nat) :
    (m.buffer b = none ∧ v.buffer b = none) ∨ ∃ k t, m.buffer b = some k ∧ v.buffer b = some t ∧ (m.alloc text).block k = some t := by
  rcases h.buffer b with h1 | ⟨k, t, h1, h2, h3⟩
  · exact .inl h1
  · refine .inr ⟨k, t, h1, h2, ?_⟩
    have := (h.good.kept (.buffer b) k h1).1
    simp only [StreamMem.ground] at this
    simp only [StreamMem.alloc]
    rw [if_neg (by omega), h3]

theorem Shows.buffers_free {m : StreamMem} {v : Streams} (h : Shows m v) {s : Nat} {p : StreamObj} (hp : m.stream s = some p) (b : Nat) :
    (m.buffer b = none ∧ v.buffer b = none) ∨ ∃ k t, m.buffer b = some k ∧ v.buffer b = some t ∧ (m.free p.own).block k = some t := by
  rcases h.buffer b with h1 | ⟨k, t, h1, h2, h3⟩
  · exact .inl h1
  · refine .inr ⟨k, t, h1, h2, ?_⟩
    simp only [StreamMem.free]
    rw [if_neg, h3]
    rintro rfl
    have := h.good.unique (.buffer b) (.stream s) p.own h1 (by simp [StreamMem.ground, hp])
    cases this

theorem home_none {m : StreamMem} {s : Nat} (h : m.stream s = none) : m.ground.home (.stream s) = none := by simp [StreamMem.ground, h]

theorem home_some {m : StreamMem} {s : Nat} {o : StreamObj} (h : m.stream s = some o) : m.ground.home (.stream s) = some o.own := by
  simp [StreamMem.ground, h]

/-- A stream that has just been made. -/
theorem new_fits (g : Ground) (k : Keeper) (own b : Nat) (t text delims : Str) (hb : g.home k = some b) (hlt : b < g.next) (ht : g.block b = some t)
    (he : t.take text.length = text) :
    g.Fits ((⟨own, b, text.length, 0, delims, false, false⟩ : StreamObj).after (CharStream.init text delims)) ⟨CharStream.init text delims, some k⟩ := by
  have hl : text.length ≤ t.length := by
    have := congrArg List.length he
    rw [List.length_take] at this
    omega
  obtain ⟨hf, hi⟩ := skipDelims_spec { rest := text, delims := delims : CharStream }
  obtain ⟨h1, h2⟩ := after_fits (t := t) (o := ⟨own, b, text.length, 0, delims, false, false⟩) hl (Nat.zero_le _)
    (c := { rest := text, delims := delims : CharStream }) (c' := CharStream.init text delims) (by simp [he]) hf
  refine ⟨hlt, hi, hb, t, ht, hl, h1, h2⟩

/-- One step of the memory is one step of the values. -/
theorem Shows.step (bits : Nat) (op : StreamMem.Op) {m : StreamMem} {v : Streams} (h : Shows m v) :
    Agree (fun p q => p.1 = q.1 ∧ Shows p.2 q.2) (m.step bits op) (v.step bits op) := by
  cases op with
  | buffer b text =>
    simp only [StreamMem.step, Streams.step]
    rcases h.buffer b with ⟨h1, h2⟩ | ⟨k, t, h1, h2, h3⟩
    · simp only [h1, h2]
      refine ⟨rfl, ?_⟩
      have hg : ({ m.alloc text with buffer := fun b' => if b' = b then some m.next else m.buffer b' } : StreamMem).ground = m.ground.add (.buffer b) text := by
        unfold StreamMem.ground Ground.add StreamMem.alloc
        simp only [Ground.mk.injEq, true_and]
        funext k
        cases k with
        | stream s' => simp
        | buffer b' => by_cases e : b' = b <;> simp [e]
      refine ⟨by rw [hg]; exact h.good.add text, fun s => ?_, fun b' => ?_⟩
      · rw [hg]
        rcases h.stream s with h3 | ⟨o, x, h3, h4, h5⟩
        · exact .inl h3
        · exact .inr ⟨o, x, h3, h4, h5.add (by simp [StreamMem.ground, h1]) text⟩
      · by_cases e : b' = b
        · subst e
          exact .inr ⟨m.next, text, by simp, by simp, by simp [StreamMem.alloc]⟩
        · rcases h.buffers_add text b' with h3 | ⟨k, t, h3, h4, h5⟩
          · exact .inl (by simpa [e] using h3)
          · exact .inr ⟨k, t, by simpa [e] using h3, by simpa [e] using h4, h5⟩
    · simp only [h1, h2]; trivial
  | free b =>
    simp only [StreamMem.step, Streams.step]
    rcases h.buffer b with ⟨h1, h2⟩ | ⟨k, t, h1, h2, h3⟩
    · simp only [h1, h2]; trivial
    · simp only [h1, h2]
      refine ⟨rfl, ?_⟩
      have hk : m.ground.home (.buffer b) = some k := h1
      have hg : ({ m.free k with buffer := fun b' => if b' = b then none else m.buffer b' } : StreamMem).ground = m.ground.remove (.buffer b) k := by
        unfold StreamMem.ground Ground.remove StreamMem.free
        simp only [Ground.mk.injEq, true_and]
        funext k
        cases k with
        | stream s' => simp
        | buffer b' => by_cases e : b' = b <;> simp [e]
      refine ⟨by rw [hg]; exact h.good.remove hk, fun s => ?_, fun b' => ?_⟩
      · rw [hg]
        rcases h.stream s with ⟨h3, h4⟩ | ⟨o, x, h3, h4, h5⟩
        · exact .inl ⟨h3, by simp [Streams.lose, h4]⟩
        · exact .inr ⟨o, Ground.lose1 (.buffer b) x, h3, by simp [Streams.lose, h4, Ground.lose1], h5.remove h.good hk⟩
      · by_cases e : b' = b
        · subst e; exact .inl (by simp)
        · rcases h.buffer b' with h6 | ⟨k', t', h6, h4, h5⟩
          · exact .inl (by simpa [e] using h6)
          · refine .inr ⟨k', t', by simpa [e] using h6, by simpa [e] using h4, ?_⟩
            simp only [StreamMem.free]
            rw [if_neg, h5]
            rintro rfl
            have := h.good.unique (.buffer b') (.buffer b) k' h6 hk
            cases this
            exact e rfl
  | fromBuffer s b delims =>
    simp only [StreamMem.step, Streams.step]
    rcases h.stream s with ⟨h1, h2⟩ | ⟨o, x, h1, h2, -⟩
    · rcases h.buffer b with ⟨h3, h4⟩ | ⟨k, t, h3, h4, h5⟩
      · simp only [h1, h2, h3, h4]; trivial
      · simp only [h1, h2, h3, h4, h5]
        refine ⟨rfl, ?_⟩
        have hg := ground_new m s [] ((⟨m.next, k, (cstr t).length, 0, delims, false, false⟩ : StreamObj).after (.ofCStr t delims)) rfl
        have hk : m.ground.home (.buffer b) = some k := h3
        have hlt := (h.good.kept _ _ hk).1
        have hlt' : k < m.next := hlt
        refine h.put_stream (by rw [hg]; exact h.good.add []) s (.inr ⟨_, _, if_pos rfl, if_pos rfl, ?_⟩) (fun s' e => if_neg e) id
          (fun s' e => by simp [Streams.put, e]) (fun o x hf => by rw [hg]; exact hf.add (home_none h1) []) ?_
        · rw [hg]
          refine new_fits _ _ _ _ t _ _ (by simp [Ground.add, hk]) (by simp only [Ground.add]; omega) ?_ ?_
          · simp only [Ground.add]
            rw [if_neg (by simp only [StreamMem.ground]; omega)]
            exact h5
          · unfold cstr
            exact (List.prefix_iff_eq_take.1 (List.takeWhile_prefix _)).symm
        · exact h.buffers_add []
    · simp only [h1, h2]; trivial
  | fromString s text delims =>
    simp only [StreamMem.step, Streams.step]
    rcases h.stream s with ⟨h1, h2⟩ | ⟨o, x, h1, h2, -⟩
    · simp only [h1, h2]
      refine ⟨rfl, ?_⟩
      have hg := ground_new m s text ((⟨m.next, m.next, text.length, 0, delims, false, false⟩ : StreamObj).after (.ofString text delims)) rfl
      refine h.put_stream (by rw [hg]; exact h.good.add text) s (.inr ⟨_, _, if_pos rfl, if_pos rfl, ?_⟩) (fun s' e => if_neg e) id
        (fun s' e => by simp [Streams.put, e]) (fun o x hf => by rw [hg]; exact hf.add (home_none h1) text) (h.buffers_add text)
      rw [hg]
      exact new_fits _ _ _ _ text _ _ (by simp [Ground.add, StreamMem.ground]) (by simp [Ground.add, StreamMem.ground])
        (by simp [Ground.add, StreamMem.ground]) (List.take_length)
    · simp only [h1, h2]; trivial
  | copy s t =>
    simp only [StreamMem.step, Streams.step]
    rcases h.stream s with ⟨h1, h2⟩ | ⟨o, x, h1, h2, -⟩
    · rcases h.stream t with ⟨h3, h4⟩ | ⟨o, x, h3, h4, h5⟩
      · simp only [h1, h2, h3, h4]; trivial
      · obtain ⟨-, text, h6⟩ := h.good.kept _ _ (home_some h3)
        change m.block o.own = some text at h6
        simp only [h1, h2, h3, h4, h6]
        refine ⟨rfl, ?_⟩
        have hg := ground_new m s text { o with own := m.next } rfl
        refine h.put_stream (by rw [hg]; exact h.good.add text) s (.inr ⟨_, _, if_pos rfl, if_pos rfl, ?_⟩) (fun s' e => if_neg e) id
          (fun s' e => by simp [Streams.put, e]) (fun o x hf => by rw [hg]; exact hf.add (home_none h1) text) (h.buffers_add text)
        rw [hg]
        exact h5.add (home_none h1) text
    · simp only [h1, h2]; trivial
  | assign s t =>
    simp only [StreamMem.step, Streams.step]
    rcases h.stream s with ⟨h1, h2⟩ | ⟨p, y, h1, h2, hy⟩
    · simp only [h1, h2]; trivial
    · rcases h.stream t with ⟨h3, h4⟩ | ⟨o, x, h3, h4, h5⟩
      · simp only [h1, h2, h3, h4]; trivial
      · obtain ⟨-, text, h6⟩ := h.good.kept _ _ (home_some h3)
        change m.block o.own = some text at h6
        simp only [h1, h2, h3, h4]
        by_cases e : s = t
        · rw [if_pos e, if_pos e]; exact ⟨rfl, h⟩
        · rw [if_neg e, if_neg e]
          simp only [h6]
          refine ⟨rfl, ?_⟩
          have hk := home_some h1
          have hg0 := ground_end m s p.own
          have hg : (((m.free p.own).alloc text).put s (some { o with own := m.next })).ground = (m.ground.remove (.stream s) p.own).add (.stream s) text := by
            rw [← hg0, ← ground_new ((m.free p.own).put s none) s text { o with own := m.next } rfl]
            rw [← streams_put_put _ s none]
            rfl
          have hn : (m.ground.remove (.stream s) p.own).home (.stream s) = none := by simp [Ground.remove]
          refine h.put_stream (by rw [hg]; exact (h.good.remove hk).add text) s (.inr ⟨_, Ground.lose1 (.stream s) x, if_pos rfl, ?_, ?_⟩) (fun s' e => if_neg e)
            (Ground.lose1 (.stream s)) (fun s' e => by simp only [Streams.put, Streams.lose, if_neg e]; rfl)
            (fun o x hf => by rw [hg]; exact (hf.remove h.good hk).add hn text) ?_
          · simp [Streams.put, Streams.lose, h4, Ground.lose1]
          · rw [hg]
            exact (h5.remove h.good hk).add hn text
          · intro b
            rcases h.buffers_free h1 b with h7 | ⟨k, t', h7, h8, h9⟩
            · exact .inl h7
            · refine .inr ⟨k, t', h7, h8, ?_⟩
              have := (h.good.kept (.buffer b) k h7).1
              change k < m.next at this
              change (if k = m.next then some text else (m.free p.own).block k) = some t'
              rw [if_neg (show ¬ k = m.next by omega)]
              exact h9
  | destroy s =>
    simp only [StreamMem.step, Streams.step]
    rcases h.stream s with ⟨h1, h2⟩ | ⟨p, y, h1, h2, hy⟩
    · simp only [h1, h2]; trivial
    · simp only [h1, h2]
      refine ⟨rfl, ?_⟩
      have hk := home_some h1
      have hg := ground_end m s p.own
      refine h.put_stream (by rw [hg]; exact h.good.remove hk) s (.inl ⟨if_pos rfl, if_pos rfl⟩) (fun s' e => if_neg e)
        (Ground.lose1 (.stream s)) (fun s' e => by simp only [Streams.put, Streams.lose, if_neg e]; rfl)
        (fun o x hf => by rw [hg]; exact hf.remove h.good hk) (h.buffers_free h1)
  | read s op =>
    simp only [StreamMem.step, Streams.step]
    rcases h.stream s with ⟨h1, h2⟩ | ⟨o, x, h1, h2, h3⟩
    · simp only [h1, h2]; trivial
    · simp only [h1, h2]
      obtain ⟨hlt, hi, h4⟩ := h3
      cases hx : x.keeper with
      | none =>
        simp only [hx] at h4 ⊢
        change m.block o.buf = none at h4
        simp only [StreamMem.view, h4]
        trivial
      | some k =>
        simp only [hx] at h4 ⊢
        obtain ⟨h5, t, h6, h7, h8, h9⟩ := h4
        have hv : m.view o = .ok x.state := by
          change m.block o.buf = some t at h6
          simp only [StreamMem.view, h6, h9]
        rw [hv, Res.bind_ok]
        cases ha : op.ask bits x.state with
        | ok r =>
          obtain ⟨a, c⟩ := r
          rw [Res.bind_ok, Res.bind_ok]
          refine ⟨rfl, ?_⟩
          have hg := ground_same m s o (o.after c) h1 rfl
          obtain ⟨hf, hi'⟩ := ask_spec bits op _ _ _ hi ha
          obtain ⟨k1, k2⟩ := after_fits h7 h8 h9 hf
          refine h.put_stream (by rw [hg]; exact h.good) s (.inr ⟨_, _, if_pos rfl, if_pos rfl, ?_⟩) (fun s' e => if_neg e) id
            (fun s' e => by simp [Streams.put, e]) (fun o x hf => by rw [hg]; exact hf) h.buffer
          rw [hg]
          refine ⟨hlt, hi', ?_⟩
          simp only
          exact ⟨h5, t, h6, h7, k1, k2⟩
        | throws e => exact rfl
        | ub => trivial
        | diverges => trivial

/-- A program in memory is that program on values. -/
theorem Shows.run (bits : Nat) (ops : List StreamMem.Op) : ∀ {m : StreamMem} {v : Streams}, Shows m v →
    Agree (fun p q => p.1 = q.1 ∧ Shows p.2 q.2) (m.run bits ops) (v.run bits ops) := by
  induction ops with
  | nil => intro m v h; exact ⟨rfl, h⟩
  | cons op ops ih =>
    intro m v h
    have h1 := h.step bits op
    unfold StreamMem.run Streams.run
    cases hm : m.step bits op with
    | ok p =>
      cases hv : v.step bits op with
      | ok q =>
        obtain ⟨a, m'⟩ := p
        obtain ⟨a', v'⟩ := q
        rw [hm, hv] at h1
        obtain ⟨rfl, h2⟩ := h1
        have h3 := ih h2
        simp only [Res.bind_ok] at h2 ⊢
        cases hm' : m'.run bits ops <;> cases hv' : v'.run bits ops <;> rw [hm', hv'] at h3 <;> try exact h3
        exact ⟨by rw [h3.1], h3.2⟩
      | _ => rw [hm, hv] at h1; exact h1.elim
    | _ => cases hv : v.step bits op <;> rw [hm, hv] at h1 <;> first | exact h1 | exact h1.elim

end Flut
