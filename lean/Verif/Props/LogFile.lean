import Verif.Spec.LogFile
import Verif.Props.Log

/-! # C97: what is logged is in the file at once -/

namespace Flut

open Spec

/-- The state of a file that was given a text. -/
structure Wrote (p : Place) (f : OFile) (text : Str) : Prop where
  opens : p.opens = true
  all : f.good = true → f.disk ++ f.buf = text
  room : f.room = p.room.map (· - f.disk.length)
  fits : ∀ r, p.room = some r → f.disk.length ≤ r
  bad : f.good = false → ∃ r, p.room = some r ∧ f.disk = text.take r ∧ r < text.length

theorem Wrote.disk_prefix {p : Place} {f : OFile} {text : Str} (w : Wrote p f text) : f.disk <+: Fits p text := by
  unfold Fits
  rw [if_pos w.opens]
  cases hg : f.good with
  | true =>
    have h := w.all hg
    cases hr : p.room with
    | none => exact ⟨f.buf, h⟩
    | some r =>
      have := w.fits r hr
      rw [← h]
      show f.disk <+: (f.disk ++ f.buf).take r
      rw [List.take_append, List.take_of_length_le this]
      exact ⟨_, rfl⟩
  | false =>
    obtain ⟨r, hr, hd, _⟩ := w.bad hg
    simp only [hr, hd]
    exact List.prefix_rfl

theorem drain_disk (f : OFile) (n : Nat) : f.disk <+: (f.drain n).disk := ⟨_, rfl⟩

theorem put_disk (f : OFile) (c : Byte) (n : Nat) : f.disk <+: (f.put c n).disk := by
  unfold OFile.put
  split
  · exact drain_disk { f with buf := f.buf ++ [c] } n
  · exact List.prefix_rfl

theorem flush_disk (f : OFile) : f.disk <+: f.flush.disk := by
  unfold OFile.flush
  split
  · exact drain_disk _ _
  · exact List.prefix_rfl

theorem Wrote.drain {p : Place} {f : OFile} {text : Str} (w : Wrote p f text) (hg : f.good = true) (n : Nat) :
    Wrote p (f.drain n) text := by
  have h := w.all hg
  cases hr : p.room with
  | none =>
    have hf : f.room = none := by rw [w.room, hr]; rfl
    refine ⟨w.opens, fun _ => ?_, ?_, fun r e => (by simp [hr] at e), fun e => ?_⟩
    · simp only [OFile.drain, List.append_assoc, List.take_append_drop, h]
    · simp [OFile.drain, hf, hr]
    · simp [OFile.drain, hf, hg] at e
  | some r =>
    have hf : f.room = some (r - f.disk.length) := by rw [w.room, hr]; rfl
    have hfit := w.fits r hr
    refine ⟨w.opens, fun _ => ?_, ?_, fun r' e => ?_, fun e => ?_⟩
    · simp only [OFile.drain, List.append_assoc, List.take_append_drop, h]
    · simp only [OFile.drain, hf, hr, Option.map_some, List.length_append, List.length_take, Option.some.injEq]
      omega
    · rw [hr] at e; cases e
      simp only [OFile.drain, hf, List.length_append, List.length_take]
      omega
    · simp only [OFile.drain, hf, hg, Bool.true_and, beq_eq_false_iff_ne, ne_eq] at e
      refine ⟨r, hr, ?_, ?_⟩
      · simp only [OFile.drain, hf]
        rw [← h, List.take_append, List.take_of_length_le hfit]
        congr 2
        omega
      · rw [← h, List.length_append]; omega

theorem Wrote.more {p : Place} {f : OFile} {text : Str} (w : Wrote p f text) (hg : f.good = false) (more : Str) :
    Wrote p f (text ++ more) := by
  obtain ⟨r, hr, hd, hl⟩ := w.bad hg
  refine ⟨w.opens, fun e => (by simp [hg] at e), w.room, w.fits, fun _ => ⟨r, hr, ?_, ?_⟩⟩
  · rw [hd, List.take_append_of_le_length (by omega)]
  · rw [List.length_append]; omega

theorem Wrote.put {p : Place} {f : OFile} {text : Str} (w : Wrote p f text) (c : Byte) (n : Nat) :
    Wrote p (f.put c n) (text ++ [c]) := by
  unfold OFile.put
  split
  · rename_i hg
    have w' : Wrote p { f with buf := f.buf ++ [c] } (text ++ [c]) :=
      ⟨w.opens, fun _ => by rw [← w.all hg, List.append_assoc], w.room, w.fits, fun e => by simp [hg] at e⟩
    exact w'.drain hg n
  · rename_i hg
    exact w.more (by simpa using hg) [c]

theorem Wrote.flush {p : Place} {f : OFile} {text : Str} (w : Wrote p f text) :
    Wrote p f.flush text ∧ f.flush.disk = Fits p text := by
  unfold OFile.flush
  split
  · rename_i hg
    have w' := w.drain hg f.buf.length
    refine ⟨w', ?_⟩
    have h := w.all hg
    unfold Fits
    rw [if_pos w.opens]
    cases hr : p.room with
    | none =>
      have hf : f.room = none := by rw [w.room, hr]; rfl
      simp [OFile.drain, hf, h]
    | some r =>
      have hf : f.room = some (r - f.disk.length) := by rw [w.room, hr]; rfl
      have hfit := w.fits r hr
      simp only [OFile.drain, hf, Nat.min_self]
      rw [← h, List.take_append, List.take_of_length_le hfit]
      congr 1
      rw [← List.take_eq_take_iff.2 (by omega : min (min f.buf.length (r - f.disk.length)) f.buf.length = min (r - f.disk.length) f.buf.length)]
  · rename_i hg
    have hg : f.good = false := by simpa using hg
    refine ⟨w, ?_⟩
    obtain ⟨r, hr, hd, _⟩ := w.bad hg
    simp [Fits, w.opens, hr, hd]

/-- All states while a text is written. -/
theorem Wrote.write {p : Place} (cs : Str) : ∀ {f : OFile} {text : Str} (spills : List Nat) (tr : List OFile), Wrote p f text →
    Wrote p (OFile.write cs spills tr f).2 (text ++ cs) ∧ f.disk <+: (OFile.write cs spills tr f).2.disk ∧
    ∀ g ∈ (OFile.write cs spills tr f).1, g ∈ tr ∨ f.disk <+: g.disk ∧ ∃ u, u <+: text ++ cs ∧ Wrote p g u := by
  induction cs with
  | nil => intro f text spills tr w; exact ⟨by simpa [OFile.write] using w, List.prefix_rfl, fun g hg => .inl hg⟩
  | cons c cs ih =>
    intro f text spills tr w
    have w' := w.put c (spills.headD 0)
    have hd := put_disk f c (spills.headD 0)
    obtain ⟨h1, h2, h3⟩ := ih spills.tail (f.put c (spills.headD 0) :: tr) w'
    have e : text ++ c :: cs = text ++ [c] ++ cs := by simp
    rw [e]
    refine ⟨h1, hd.trans h2, fun g hg => ?_⟩
    rcases h3 g hg with h | ⟨ha, u, hu, hw⟩
    · rcases List.mem_cons.1 h with rfl | h
      · exact .inr ⟨hd, _, ⟨cs, rfl⟩, w'⟩
      · exact .inl h
    · exact .inr ⟨hd.trans ha, u, hu, hw⟩

theorem fits_mono {p : Place} {u v : Str} (h : u <+: v) : Fits p u <+: Fits p v := by
  unfold Fits
  split
  · split
    · exact h
    · obtain ⟨w, rfl⟩ := h
      rw [List.take_append]
      exact ⟨_, rfl⟩
  · exact List.prefix_rfl

/-- The file of a sink whose lines are all in it. -/
def Logged (p : Place) (f : OFile) (lines : List Str) : Prop :=
  (p.opens = true ∧ Wrote p f (textOf lines) ∧ f.disk = Fits p (textOf lines)) ∨ (p.opens = false ∧ f.good = false ∧ f.disk = [])

theorem textOf_concat (lines : List Str) (m : Str) : textOf (lines ++ [m]) = textOf lines ++ (m ++ [10]) := by
  simp [textOf]

theorem streamSend_spec {p : Place} {f : OFile} {text : Str} (w : Wrote p f text) (hd : f.disk = Fits p text) (m : Str)
    (spills : List Nat) :
    Wrote p (f.streamSend m spills).2 (text ++ (m ++ [10])) ∧ (f.streamSend m spills).2.disk = Fits p (text ++ (m ++ [10])) ∧
    ∀ g ∈ (f.streamSend m spills).1, Fits p text <+: g.disk ∧ g.disk <+: Fits p (text ++ (m ++ [10])) := by
  obtain ⟨h1, h2, h3⟩ := w.write (m ++ [10]) spills [f]
  obtain ⟨h4, h5⟩ := h1.flush
  refine ⟨h4, h5, fun g hg => ?_⟩
  simp only [OFile.streamSend, List.mem_cons] at hg
  rcases hg with rfl | hg
  · rw [h5]; exact ⟨fits_mono ⟨_, rfl⟩, List.prefix_rfl⟩
  · rcases h3 g hg with h | ⟨ha, u, hu, hw⟩
    · rw [List.mem_singleton] at h; subst h; rw [hd]; exact ⟨List.prefix_rfl, fits_mono ⟨_, rfl⟩⟩
    · exact ⟨hd ▸ ha, hw.disk_prefix.trans (fits_mono hu)⟩

theorem Logged.send {p : Place} {f : OFile} {lines : List Str} (h : Logged p f lines) (m : Str) (spills : List Nat) :
    Logged p (f.fileSend m spills).2 (lines ++ [m]) ∧
    ∀ g ∈ (f.fileSend m spills).1, Fits p (textOf lines) <+: g.disk ∧ g.disk <+: Fits p (textOf (lines ++ [m])) := by
  rw [textOf_concat]
  unfold OFile.fileSend
  rcases h with ⟨ho, w, hd⟩ | ⟨ho, hg, hd⟩
  · split
    · obtain ⟨h1, h2, h3⟩ := streamSend_spec w hd m spills
      obtain ⟨h4, h5⟩ := h1.flush
      refine ⟨.inl ⟨ho, by rw [textOf_concat]; exact h4, by rw [textOf_concat]; exact h5⟩, fun g hg => ?_⟩
      rcases List.mem_cons.1 hg with rfl | hg
      · rw [h5]; exact ⟨fits_mono ⟨_, rfl⟩, List.prefix_rfl⟩
      · exact h3 g hg
    · rename_i hg
      have hg : f.good = false := by simpa using hg
      have w' := w.more hg (m ++ [10])
      have e : f.disk = Fits p (textOf lines ++ (m ++ [10])) := by
        have := w'.flush.2
        rwa [OFile.flush, if_neg (by simp [hg])] at this
      refine ⟨.inl ⟨ho, by rw [textOf_concat]; exact w', by rw [textOf_concat]; exact e⟩, fun g hg => ?_⟩
      rw [List.mem_singleton] at hg
      subst hg
      exact ⟨hd ▸ List.prefix_rfl, e ▸ List.prefix_rfl⟩
  · rw [if_neg (by simp [hg])]
    refine ⟨.inr ⟨ho, hg, hd⟩, fun g hg => ?_⟩
    rw [List.mem_singleton] at hg
    subst hg
    simp [Fits, ho, hd]

theorem deliver_spec (spills : Nat → List Nat) (l : Nat) (msg : Str) (ss : List Nat) (hn : ss.Nodup) (file : Nat → OFile) (s : Nat) :
    LogWorld.deliver spills (ss.map fun s => (s, l, msg)) file s =
      if s ∈ ss then ((file s).fileSend msg (spills s)).2 else file s := by
  induction ss generalizing file with
  | nil => rfl
  | cons a ss ih =>
    rw [List.nodup_cons] at hn
    simp only [List.map_cons, LogWorld.deliver]
    rw [ih hn.2]
    by_cases h : s = a
    · subst h; simp [hn.1]
    · simp [h]

theorem logged_create (p : Place) : Logged p p.create [] := by
  unfold Logged Place.create
  cases h : p.opens with
  | true =>
    refine .inl ⟨rfl, ⟨h, fun _ => rfl, ?_, by simp, by simp⟩, ?_⟩
    · simp
    · simp only [Fits, h, textOf, if_true]; cases p.room <;> simp
  | false => exact .inr ⟨rfl, rfl, rfl⟩

/-- The world corresponds to the transcript. -/
structure WorldRep (place : Nat → Place) (w : LogWorld) (t : Transcript) : Prop where
  log : Log.Rep w.log t.sinks
  files : ∀ s, Logged (place s) (w.file s) (t.lines s) ∨ t.sinks.level s = none ∧ t.lines s = [] ∧ (w.file s).disk = []

/-- No call but the creation of a sink makes one exist. -/
theorem step_level {σ σ' : SinkSpec} {op : Log.Op} (hc : ∀ s l, op ≠ .create s l) (h : σ.step op = .ok σ')
    (he : ∀ s ∈ σ.registered, (σ.level s).isSome) (s : Nat) (hs : σ.level s = none) : σ'.level s = none := by
  cases op with
  | create a l => exact absurd rfl (hc a l)
  | destroy a =>
    simp only [SinkSpec.step] at h
    split at h
    · cases h
    · injection h with h; subst h; simp [hs]
  | add a =>
    simp only [SinkSpec.step] at h
    split at h
    · cases h
    · injection h with h; subst h; simp [hs]
  | remove a => injection h with h; subst h; exact hs
  | setLevel a l =>
    simp only [SinkSpec.step] at h
    split at h
    · cases h
    · rename_i ha
      injection h with h; subst h
      have : s ≠ a := fun e => ha (e ▸ hs)
      simp [this, hs]
  | setGlobal l =>
    injection h with h; subst h
    have : s ∉ σ.registered := fun e => by have := he s e; simp [hs] at this
    simp [this, hs]
  | getGlobal => injection h with h; subst h; exact hs

theorem worldRep_call {place : Nat → Place} {w : LogWorld} {t : Transcript} (r : WorldRep place w t) (op : Log.Op) :
    Agree (WorldRep place) (w.step place (.call op)) (t.step (.call op)) := by
  have h := Log.rep_run r.log op
  have e : t.step (.call op) = (do
      let σ ← t.sinks.step op
      .ok ⟨σ, match op with | .create s _ => (fun s' => if s' = s then [] else t.lines s') | _ => t.lines⟩) := by
    cases op <;> rfl
  rw [e]
  simp only [LogWorld.step]
  cases h1 : w.log.run op with
  | throws x => cases h2 : t.sinks.step op <;> rw [h1, h2] at h <;> first | exact h.elim | exact h
  | ub => cases h2 : t.sinks.step op <;> rw [h1, h2] at h <;> first | exact h.elim | exact h
  | diverges => cases h2 : t.sinks.step op <;> rw [h1, h2] at h <;> first | exact h.elim | exact h
  | ok g =>
    cases h2 : t.sinks.step op with
    | throws x => rw [h1, h2] at h; exact h.elim
    | ub => rw [h1, h2] at h; exact h.elim
    | diverges => rw [h1, h2] at h; exact h.elim
    | ok σ =>
      rw [h1, h2] at h
      refine ⟨h, fun s => ?_⟩
      by_cases hc : ∃ a l, op = .create a l
      · obtain ⟨a, l, rfl⟩ := hc
        simp only
        by_cases ha : s = a
        · subst ha
          left
          simpa using logged_create (place s)
        · have hl : σ.level s = t.sinks.level s := by
            simp only [SinkSpec.step] at h2
            split at h2
            · injection h2 with h2; subst h2; simp [ha]
            · cases h2
          have := r.files s
          simpa [ha, hl] using this
      · have hc' : ∀ a l, op ≠ .create a l := fun a l e => hc ⟨a, l, e⟩
        have hf := r.files s
        have : Logged (place s) (w.file s) (t.lines s) ∨ σ.level s = none ∧ t.lines s = [] ∧ (w.file s).disk = [] := by
          rcases hf with hf | ⟨h3, h4⟩
          · exact .inl hf
          · exact .inr ⟨step_level hc' h2 r.log.exist s h3, h4⟩
        cases op <;> first | exact absurd rfl (hc' _ _) | exact this

theorem worldRep_step {place : Nat → Place} {w : LogWorld} {t : Transcript} (r : WorldRep place w t) (op : LogWorld.Op) :
    Agree (WorldRep place) (w.step place op) (t.step op) := by
  cases op with
  | call op => exact worldRep_call r op
  | send l msg spills =>
    have hm := r.log.shows.message l msg
    have hn : (t.sinks.receivers l).Nodup := r.log.nodup.filter _
    simp only [LogWorld.step, hm, Transcript.step, Res.bind_ok]
    refine ⟨r.log, fun s => ?_⟩
    simp only [deliver_spec spills l msg _ hn]
    by_cases hs : s ∈ t.sinks.receivers l
    · simp only [hs, if_true]
      rcases r.files s with hf | ⟨h3, _⟩
      · exact .inl (hf.send msg (spills s)).1
      · have := r.log.exist s (List.mem_of_mem_filter hs)
        simp [h3] at this
    · simpa only [hs, if_false] using r.files s

theorem worldRep_run {place : Nat → Place} (ops : List LogWorld.Op) : ∀ {w : LogWorld} {t : Transcript}, WorldRep place w t →
    Agree (WorldRep place) (w.run place ops) (t.run ops) := by
  induction ops with
  | nil => intro w t r; exact r
  | cons op ops ih =>
    intro w t r
    have h := worldRep_step r op
    simp only [LogWorld.run, Transcript.run]
    cases h1 : w.step place op <;> cases h2 : t.step op <;> rw [h1, h2] at h <;> first | exact h.elim | exact ih h | exact h

theorem worldRep_init (place : Nat → Place) : WorldRep place .init {} :=
  ⟨Log.rep_init, fun _ => .inr ⟨rfl, rfl, rfl⟩⟩

/-- What a file has in it. -/
theorem WorldRep.disk {place : Nat → Place} {w : LogWorld} {t : Transcript} (r : WorldRep place w t) (s : Nat) :
    (w.file s).disk = Fits (place s) (textOf (t.lines s)) := by
  rcases r.files s with h | ⟨_, h1, h2⟩
  · rcases h with ⟨_, _, h⟩ | ⟨h, _, h'⟩
    · exact h
    · rw [h']; simp [Fits, h]
  · rw [h1, h2]
    unfold Fits
    split
    · split <;> simp [textOf]
    · rfl

/-- After every history of creating and destroying file sinks, registering, changing levels and logging: the file of every sink
has in it exactly the lines it was sent, in order, as far as there is room, whenever the stream chooses to empty its buffer. -/
theorem C97_files (place : Nat → Place) (ops : List LogWorld.Op) :
    Agree (fun (w : LogWorld) (t : Transcript) => ∀ s, (w.file s).disk = Fits (place s) (textOf (t.lines s)))
      (LogWorld.run place ops .init) (Transcript.run ops {}) :=
  (worldRep_run ops (worldRep_init place)).mono fun _ _ r => r.disk

/-- If the program dies while a message is written, every line sent before is in the file, and nothing but the beginning of the
message behind them. -/
theorem C97_crash (place : Nat → Place) (ops : List LogWorld.Op) (w : LogWorld) (t : Transcript)
    (hw : LogWorld.run place ops .init = .ok w) (ht : Transcript.run ops {} = .ok t) (s : Nat) (hs : t.sinks.level s ≠ none)
    (msg : Str) (spills : List Nat) :
    ∀ f ∈ ((w.file s).fileSend msg spills).1, Fits (place s) (textOf (t.lines s)) <+: f.disk ∧
      f.disk <+: Fits (place s) (textOf (t.lines s ++ [msg])) := by
  have r := worldRep_run ops (worldRep_init place)
  rw [hw, ht] at r
  rcases r.files s with h | ⟨h, _⟩
  · exact (h.send msg spills).2
  · exact absurd h hs

/-- A plain stream sink leaves the same in its file. -/
theorem C97_stream (p : Place) (ho : p.opens = true) (msgs : List (Str × List Nat)) :
    (msgs.foldl (fun f m => (f.streamSend m.1 m.2).2) p.create).disk = Fits p (textOf (msgs.map Prod.fst)) := by
  have h : ∀ (ms : List (Str × List Nat)) (f : OFile) (lines : List Str), Wrote p f (textOf lines) →
      f.disk = Fits p (textOf lines) → (ms.foldl (fun f m => (f.streamSend m.1 m.2).2) f).disk = Fits p (textOf (lines ++ ms.map Prod.fst)) := by
    intro ms
    induction ms with
    | nil => intro f lines _ hd; simpa using hd
    | cons m ms ih =>
      intro f lines w hd
      obtain ⟨h1, h2, _⟩ := streamSend_spec w hd m.1 m.2
      rw [← textOf_concat] at h1 h2
      have := ih _ _ h1 h2
      simpa using this
  rcases logged_create p with ⟨_, w, hd⟩ | ⟨h', _⟩
  · simpa using h msgs _ [] w hd
  · rw [ho] at h'; cases h'

/-- Two sinks, one of which takes warnings only and has room for four bytes; the other one is destroyed before the last message. -/
example : (LogWorld.run (fun s => if s = 8 then { room := some 4 } else {})
      [.call (.create 7 3), .call (.create 8 4), .send 3 b!"ab" fun _ => [], .send 5 b!"cd" fun _ => [1], .call (.destroy 7),
        .send 6 b!"ef" fun _ => [0, 2]] .init >>= fun w => .ok ((w.file 7).disk, (w.file 8).disk)) =
    .ok (b!"ab\ncd\n", b!"cd\ne") := by decide

end Flut
