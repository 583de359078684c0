import Verif.Spec.LogThreads
import Verif.Proofs.Threads
import Verif.Props.Log

/-! # C128: logging from several threads -/

namespace Flut.Threads

variable {α β : Type}

theorem alone_bind' {L V : Type} [DecidableEq L] (x : Prog L V α) (f : α → Prog L V β) (m : L → V) :
    (x.bind f).alone m = (f (x.alone m).1).alone (x.alone m).2 := by
  induction x generalizing m with
  | ret a => rfl
  | read l k ih => exact ih _ _
  | write l v k ih => exact ih _
  | modify a l g k ih => exact ih _

theorem trace_bind {L V : Type} [DecidableEq L] (x : Prog L V α) (f : α → Prog L V β) (m : L → V) :
    (x.bind f).trace m = x.trace m ++ (f (x.alone m).1).trace (x.alone m).2 := by
  induction x generalizing m with
  | ret a => rfl
  | read l k ih => simp only [Prog.bind, Prog.trace, Prog.alone, ih]; rfl
  | write l v k ih => simp only [Prog.bind, Prog.trace, Prog.alone, ih]; rfl
  | modify a l g k ih => simp only [Prog.bind, Prog.trace, Prog.alone, ih]; rfl

/-! ## One thread -/

theorem logMem_console (g : Log) (T : Str) (S : Nat → Str) (t : Str) :
    (fun l' => if l' = LogPlace.console then LogCell.push t (logMem g T S .console) else logMem g T S l') = logMem g (T ++ t) S := by
  funext l
  cases l <;> rfl

theorem logMem_stream (g : Log) (T : Str) (S : Nat → Str) (s : Nat) (t : Str) :
    (fun l' => if l' = LogPlace.stream s then LogCell.push t (logMem g T S (.stream s)) else logMem g T S l') =
      logMem g T (fun s' => if s' = s then S s' ++ t else S s') := by
  funext l
  cases l with
  | stream s' =>
    by_cases h : s' = s
    · subst h; simp [logMem, LogCell.push, LogCell.asText]
    · simp [logMem, h]
  | _ => rfl

theorem coutP_alone (g : Log) (t : Str) : ∀ (T : Str) (S : Nat → Str), (coutP t).alone (logMem g T S) = ((), logMem g (T ++ t) S) := by
  induction t with
  | nil => intro T S; simp [coutP, Prog.alone]
  | cons c cs ih =>
    intro T S
    simp only [coutP, Prog.alone]
    rw [logMem_console, ih]
    simp

/-- The effect of messages that were sent to sinks. -/
def sentConsole (cout : Nat → Bool) (sent : List (Nat × Nat × Str)) : Str := sent.flatMap fun p => if cout p.1 then p.2.2 ++ [10] else []

/-- That on streams. -/
def sentStream (cout : Nat → Bool) (sent : List (Nat × Nat × Str)) (s : Nat) : Str :=
  sent.flatMap fun p => if cout s = false ∧ p.1 = s then p.2.2 ++ [10] else []

theorem sendP_alone (cout : Nat → Bool) (g : Log) (T : Str) (S : Nat → Str) (s l : Nat) (msg : Str) :
    (sendP cout s msg).alone (logMem g T S) =
      ((), logMem g (T ++ sentConsole cout [(s, l, msg)]) fun s' => S s' ++ sentStream cout [(s, l, msg)] s') := by
  unfold sendP
  cases h : cout s with
  | true =>
    rw [if_pos rfl, coutP_alone]
    have e : (fun s' => S s' ++ sentStream cout [(s, l, msg)] s') = S := by
      funext s'
      by_cases e : s = s'
      · subst e; simp [sentStream, h]
      · simp [sentStream, e]
    rw [e]
    simp [sentConsole, h]
  | false =>
    simp only [Bool.false_eq_true, if_false, Prog.alone]
    rw [logMem_stream]
    have e : (fun s' => S s' ++ sentStream cout [(s, l, msg)] s') = fun s' => if s' = s then S s' ++ (msg ++ [10]) else S s' := by
      funext s'
      by_cases e : s' = s
      · subst e; simp [sentStream, h]
      · simp [sentStream, e, Ne.symm e]
    rw [e]
    simp [sentConsole, h]

theorem logString_cons {g : Log} {l : Nat} {msg : Str} {s : Nat} {ss : List Nat} {sent : List (Nat × Nat × Str)} (h : g.logString l msg (s :: ss) = .ok sent) :
    ∃ own rest, g.objects s = some own ∧ g.logString l msg ss = .ok rest ∧ sent = if own ≤ l then (s, l, msg) :: rest else rest := by
  simp only [Log.logString, Log.levelOf] at h
  cases ho : g.objects s with
  | none => rw [ho] at h; cases h
  | some own =>
    rw [ho] at h
    cases hr : g.logString l msg ss with
    | ok rest =>
      rw [hr] at h
      refine ⟨own, rest, rfl, rfl, ?_⟩
      injection h with h
      exact h.symm
    | throws e => rw [hr] at h; cases h
    | ub => rw [hr] at h; cases h
    | diverges => rw [hr] at h; cases h

theorem sentConsole_append (cout : Nat → Bool) (a b : List (Nat × Nat × Str)) : sentConsole cout (a ++ b) = sentConsole cout a ++ sentConsole cout b := by
  simp [sentConsole]

theorem sentStream_append (cout : Nat → Bool) (a b : List (Nat × Nat × Str)) (s : Nat) : sentStream cout (a ++ b) s = sentStream cout a s ++ sentStream cout b s := by
  simp [sentStream]

theorem logStringP_alone (cout : Nat → Bool) (g : Log) (l : Nat) (msg : Str) : ∀ (ss : List Nat) (sent : List (Nat × Nat × Str)) (T : Str) (S : Nat → Str),
    g.logString l msg ss = .ok sent →
    (logStringP cout l msg ss).alone (logMem g T S) = ((), logMem g (T ++ sentConsole cout sent) fun s => S s ++ sentStream cout sent s) := by
  intro ss
  induction ss with
  | nil =>
    intro sent T S h
    injection h with h
    subst h
    simp [logStringP, Prog.alone, sentConsole, sentStream]
  | cons s ss ih =>
    intro sent T S h
    obtain ⟨own, rest, ho, hr, rfl⟩ := logString_cons h
    have e : (logMem g T S (.level s)).asLevel = own := by simp [logMem, LogCell.asLevel, ho]
    simp only [logStringP, Prog.alone, e]
    by_cases hl : own ≤ l
    · rw [if_pos hl, if_pos hl, alone_bind', sendP_alone cout g T S s l msg, ih rest _ _ hr]
      rw [show (s, l, msg) :: rest = [(s, l, msg)] ++ rest from rfl, sentConsole_append, List.append_assoc]
      simp only [sentStream_append, List.append_assoc]
    · rw [if_neg hl, if_neg hl]
      exact ih rest T S hr

theorem messageP_alone (cout : Nat → Bool) (g : Log) (l : Nat) (msg : Str) (sent : List (Nat × Nat × Str)) (T : Str) (S : Nat → Str)
    (h : g.message l msg = .ok sent) :
    (messageP cout l msg).alone (logMem g T S) = ((), logMem g (T ++ sentConsole cout sent) fun s => S s ++ sentStream cout sent s) := by
  unfold Log.message at h
  simp only [messageP, Prog.alone]
  have e : (logMem g T S .lowest).asLevel = g.lowest := rfl
  have e' : (logMem g T S .sinks).asSinks = g.sinks := rfl
  rw [e]
  by_cases hl : g.lowest ≤ l
  · rw [if_pos (by simpa [Log.testLevel] using hl)] at h
    rw [if_pos hl]
    simp only [Prog.alone, e']
    exact logStringP_alone cout g l msg _ sent T S h
  · rw [if_neg (by simpa [Log.testLevel] using hl)] at h
    injection h with h
    subst h
    rw [if_neg hl]
    simp [Prog.alone, sentConsole, sentStream]

theorem sentConsole_receivers (cout : Nat → Bool) (ss : List Nat) (l : Nat) (msg : Str) :
    sentConsole cout (ss.map fun s => (s, l, msg)) = (ss.filter cout).flatMap fun _ => msg ++ [10] := by
  induction ss with
  | nil => rfl
  | cons s ss ih =>
    have : sentConsole cout ((s, l, msg) :: ss.map fun s => (s, l, msg)) =
      (if cout s then msg ++ [10] else []) ++ sentConsole cout (ss.map fun s => (s, l, msg)) := by simp [sentConsole]
    rw [List.map_cons, this, ih]
    cases h : cout s <;> simp [h]

theorem sentStream_receivers (cout : Nat → Bool) (ss : List Nat) (hn : ss.Nodup) (l : Nat) (msg : Str) (s : Nat) :
    sentStream cout (ss.map fun s => (s, l, msg)) s = if cout s = false ∧ s ∈ ss then msg ++ [10] else [] := by
  induction ss with
  | nil => simp [sentStream]
  | cons t ss ih =>
    have : sentStream cout ((t, l, msg) :: ss.map fun s => (s, l, msg)) s =
      (if cout s = false ∧ t = s then msg ++ [10] else []) ++ sentStream cout (ss.map fun s => (s, l, msg)) s := by simp [sentStream]
    rw [List.map_cons, this, ih (List.nodup_cons.1 hn).2]
    have hno := (List.nodup_cons.1 hn).1
    by_cases hc : cout s = false
    · by_cases e : t = s
      · subst e
        simp [hc, hno]
      · simp [hc, e, Ne.symm e]
    · simp [hc]

/-- A thread that only logs, alone. -/
theorem client_alone (cout : Nat → Bool) (g : Log) (σ : SinkSpec) (h : LogShows g σ) (c : LogClient) (ho : c.OnlyLogs) : ∀ (T : Str) (S : Nat → Str),
    (c.prog cout).alone (logMem g T S) = (c.answers g, logMem g (T ++ consoleText σ cout (c.said g))
      fun s => if cout s then S s else S s ++ streamText σ s (c.said g)) := by
  induction c with
  | done =>
    intro T S
    simp [LogClient.prog, Prog.alone, LogClient.answers, LogClient.said, consoleText, streamText]
  | call c next ih =>
    intro T S
    cases c with
    | message l msg =>
      simp only [LogClient.prog, LogCall.run, alone_bind', Prog.alone]
      rw [messageP_alone cout g l msg _ T S (h.message l msg)]
      dsimp only
      rw [ih .none (ho.2 _)]
      dsimp only
      rw [sentConsole_receivers]
      have hn : (σ.receivers l).Nodup := h.nodup.filter _
      have e : (fun s => if cout s then S s ++ sentStream cout ((σ.receivers l).map fun s => (s, l, msg)) s else
          S s ++ sentStream cout ((σ.receivers l).map fun s => (s, l, msg)) s ++ streamText σ s ((next .none).said g)) =
          fun s => if cout s then S s else S s ++ streamText σ s ((l, msg) :: (next .none).said g) := by
        funext s
        rw [sentStream_receivers cout _ hn]
        cases hc : cout s <;> simp [streamText]
      rw [e]
      simp [LogClient.answers, LogClient.said, consoleText]
    | testLevel l =>
      simp only [LogClient.prog, LogCall.run, Prog.bind, Prog.alone, alone_bind']
      have e : decide ((logMem g T S .lowest).asLevel ≤ l) = g.testLevel l := rfl
      rw [e, ih _ (ho.2 _)]
      rfl
    | _ => exact absurd ho.1 (by simp [LogCall.onlyLogs])

/-! ## What such a thread uses -/

/-- Levels and the list of sinks. -/
def logConfig : LogPlace → Prop
  | .console => False
  | .stream _ => False
  | _ => True

theorem coutP_uses {m : LogPlace → LogCell} {R W A : LogPlace → Prop} (hc : W .console ∨ A .console) : ∀ t : Str, (coutP t).UsesAt m R W A := by
  intro t
  induction t with
  | nil => trivial
  | cons c cs ih => exact ⟨hc, ih⟩

theorem logStringP_uses (cout : Nat → Bool) (g : Log) (T : Str) (S : Nat → Str) (l : Nat) (msg : Str) {W A : LogPlace → Prop} (hc : W .console ∨ A .console) :
    ∀ (ss : List Nat) (sent : List (Nat × Nat × Str)), g.logString l msg ss = .ok sent →
    (∀ p ∈ sent, cout p.1 = false → W (.stream p.1) ∨ A (.stream p.1)) → (logStringP cout l msg ss).UsesAt (logMem g T S) logConfig W A := by
  intro ss
  induction ss with
  | nil => intro sent _ _; trivial
  | cons s ss ih =>
    intro sent h hs
    obtain ⟨own, rest, ho, hr, rfl⟩ := logString_cons h
    have e : (logMem g T S (.level s)).asLevel = own := by simp [logMem, LogCell.asLevel, ho]
    refine Or.inl ⟨trivial, ?_⟩
    dsimp only
    rw [e]
    by_cases hl : own ≤ l
    · rw [if_pos hl]
      rw [if_pos hl] at hs
      refine usesAt_bind _ _ ?_ fun _ => ih rest hr fun p hp => hs p (List.mem_cons_of_mem _ hp)
      unfold sendP
      cases hcs : cout s with
      | true => exact coutP_uses hc _
      | false => exact ⟨hs _ List.mem_cons_self hcs, trivial⟩
    · rw [if_neg hl]
      rw [if_neg hl] at hs
      exact ih rest hr hs

theorem client_uses (cout : Nat → Bool) (g : Log) (σ : SinkSpec) (h : LogShows g σ) (T : Str) (S : Nat → Str) {W A : LogPlace → Prop}
    (hc : W .console ∨ A .console) (c : LogClient) (ho : c.OnlyLogs)
    (hs : ∀ p ∈ c.said g, ∀ s ∈ σ.receivers p.1, cout s = false → W (.stream s) ∨ A (.stream s)) :
    (c.prog cout).UsesAt (logMem g T S) logConfig W A := by
  induction c with
  | done => trivial
  | call c next ih =>
    cases c with
    | message l msg =>
      have hn := ih .none (ho.2 _) (fun p hp => hs p (by simp only [LogClient.said]; exact List.mem_cons_of_mem _ hp))
      have hl := hs (l, msg) (by simp [LogClient.said])
      have hm := h.message l msg
      have hf : ∀ a : LogAns, a = .none → (((next a).prog cout).bind fun as => Prog.ret (a :: as)).UsesAt (logMem g T S) logConfig W A := by
        rintro a rfl
        exact usesAt_bind _ _ hn fun _ => trivial
      show (((messageP cout l msg).bind fun _ => Prog.ret LogAns.none).bind _).UsesAt _ _ _ _
      have assoc : ∀ x : LP Unit, x.UsesAt (logMem g T S) logConfig W A →
          ((x.bind fun _ => Prog.ret LogAns.none).bind fun a => ((next a).prog cout).bind fun as => Prog.ret (a :: as)).UsesAt (logMem g T S) logConfig W A := by
        intro x hx
        induction x with
        | ret a => exact hf _ rfl
        | read l k ih =>
          rcases hx with ⟨r, hx⟩ | ⟨w, hx⟩
          · exact Or.inl ⟨r, ih _ hx⟩
          · exact Or.inr ⟨w, fun v => ih v (hx v)⟩
        | write l v k ih => exact ⟨hx.1, ih hx.2⟩
        | modify a l f k ih => exact ⟨hx.1, ih hx.2⟩
      refine assoc _ (Or.inl ⟨trivial, ?_⟩)
      show Prog.UsesAt _ _ _ _ (if (logMem g T S .lowest).asLevel ≤ l then _ else _)
      have e : (logMem g T S .lowest).asLevel = g.lowest := rfl
      rw [e]
      unfold Log.message at hm
      by_cases hlow : g.lowest ≤ l
      · rw [if_pos hlow]
        rw [if_pos (by simpa [Log.testLevel] using hlow)] at hm
        refine Or.inl ⟨trivial, logStringP_uses cout g T S l msg hc _ _ hm fun p hp hcp => ?_⟩
        obtain ⟨s, hs', rfl⟩ := List.mem_map.1 hp
        exact hl s hs' hcp
      · rw [if_neg hlow]; trivial
    | testLevel l =>
      refine Or.inl ⟨trivial, ?_⟩
      show (((next (LogAns.bool (g.testLevel l))).prog cout).bind fun as => Prog.ret (LogAns.bool (g.testLevel l) :: as)).UsesAt _ _ _ _
      exact usesAt_bind _ _ (ih _ (ho.2 _) fun p hp => hs p hp) fun _ => trivial
    | _ => exact absurd ho.1 (by simp [LogCall.onlyLogs])

/-! ## The console -/

/-- The console is only given characters, in the safe way. -/
def Pushes : LP α → Prop
  | .ret _ => True
  | .read l k => l ≠ .console ∧ ∀ v, Pushes (k v)
  | .write l _ k => l ≠ .console ∧ Pushes k
  | .modify a l f k => (l = .console → a = true ∧ ∃ c, f = LogCell.push [c]) ∧ Pushes k

theorem pushes_bind (x : LP α) (f : α → LP β) (hx : Pushes x) (hf : ∀ a, Pushes (f a)) : Pushes (x.bind f) := by
  induction x with
  | ret a => exact hf a
  | read l k ih => exact ⟨hx.1, fun v => ih v (hx.2 v)⟩
  | write l v k ih => exact ⟨hx.1, ih hx.2⟩
  | modify a l g k ih => exact ⟨hx.1, ih hx.2⟩

theorem pushes_cout : ∀ t : Str, Pushes (coutP t) := by
  intro t
  induction t with
  | nil => trivial
  | cons c cs ih => exact ⟨fun _ => ⟨rfl, c, rfl⟩, ih⟩

theorem pushes_logString (cout : Nat → Bool) (l : Nat) (msg : Str) : ∀ ss, Pushes (logStringP cout l msg ss) := by
  intro ss
  induction ss with
  | nil => trivial
  | cons s ss ih =>
    refine ⟨by simp, fun v => ?_⟩
    dsimp only
    split
    · refine pushes_bind _ _ ?_ fun _ => ih
      unfold sendP
      split
      · exact pushes_cout _
      · exact ⟨by simp, trivial⟩
    · exact ih

theorem pushes_client (cout : Nat → Bool) (c : LogClient) (ho : c.OnlyLogs) : Pushes (c.prog cout) := by
  induction c with
  | done => trivial
  | call c next ih =>
    refine pushes_bind _ _ ?_ fun a => pushes_bind _ _ (ih a (ho.2 a)) fun _ => trivial
    cases c with
    | message l msg =>
      refine pushes_bind _ _ ⟨by simp, fun v => ?_⟩ fun _ => trivial
      dsimp only
      split
      · exact ⟨by simp, fun v => pushes_logString cout l msg _⟩
      · trivial
    | testLevel l => exact ⟨by simp, fun _ => trivial⟩
    | _ => exact absurd ho.1 (by simp [LogCall.onlyLogs])

/-- The memory with an empty console. -/
def blank (m : LogPlace → LogCell) : LogPlace → LogCell := fun l => if l = .console then .text [] else m l

theorem blank_update (m : LogPlace → LogCell) (l : LogPlace) (hl : l ≠ .console) (v : LogCell) :
    blank (fun l' => if l' = l then v else m l') = fun l' => if l' = l then v else blank m l' := by
  funext l'
  unfold blank
  by_cases e : l' = .console
  · rw [if_pos e, if_neg (e ▸ Ne.symm hl), if_pos e]
  · rw [if_neg e, if_neg e]

/-- What the thread will still put on the console. -/
def pending (x : LP α) (m : LogPlace → LogCell) : Str := ((x.alone (blank m)).2 .console).asText

theorem pushes_alone (x : LP α) (hx : Pushes x) : ∀ (m m' : LogPlace → LogCell) (T T' : Str), (∀ l, l ≠ .console → m l = m' l) → m .console = .text T →
    m' .console = .text T' → ∃ t, (x.alone m).2 .console = .text (T ++ t) ∧ (x.alone m').2 .console = .text (T' ++ t) := by
  induction x with
  | ret a => exact fun m m' T T' _ h h' => ⟨[], by simpa [Prog.alone] using h, by simpa [Prog.alone] using h'⟩
  | read l k ih =>
    intro m m' T T' he h h'
    simp only [Prog.alone]
    rw [← he l hx.1]
    exact ih _ (hx.2 _) m m' T T' he h h'
  | write l v k ih =>
    intro m m' T T' he h h'
    simp only [Prog.alone]
    refine ih hx.2 _ _ T T' (fun l' hl => ?_) ?_ ?_
    · split
      · rfl
      · exact he l' hl
    · rw [if_neg (Ne.symm hx.1)]; exact h
    · rw [if_neg (Ne.symm hx.1)]; exact h'
  | modify a l f k ih =>
    intro m m' T T' he h h'
    simp only [Prog.alone]
    by_cases hl : l = .console
    · obtain ⟨-, c, rfl⟩ := hx.1 hl
      subst hl
      obtain ⟨t, h1, h2⟩ := ih hx.2 (fun l' => if l' = .console then LogCell.push [c] (m .console) else m l')
        (fun l' => if l' = .console then LogCell.push [c] (m' .console) else m' l') (T ++ [c]) (T' ++ [c])
        (fun l' hl => by rw [if_neg hl, if_neg hl]; exact he l' hl) (by rw [if_pos rfl, h]; rfl) (by rw [if_pos rfl, h']; rfl)
      exact ⟨c :: t, by rw [h1]; simp, by rw [h2]; simp⟩
    · refine ih hx.2 _ _ T T' (fun l' hl' => ?_) ?_ ?_
      · rw [he l hl]
        split
        · rfl
        · exact he l' hl'
      · rw [if_neg (Ne.symm hl)]; exact h
      · rw [if_neg (Ne.symm hl)]; exact h'

theorem pending_eq (x : LP α) (hx : Pushes x) (m : LogPlace → LogCell) (T : Str) (h : m .console = .text T) :
    (x.alone m).2 .console = .text (T ++ pending x m) := by
  obtain ⟨t, h1, h2⟩ := pushes_alone x hx m (blank m) T [] (fun l hl => by simp [blank, hl]) h (by simp [blank])
  rw [h1, pending, h2]
  rfl

theorem usesAt_mono {L V : Type} {m : L → V} {R W A W' A' : L → Prop} (x : Prog L V α) (hw : ∀ l, W l → W' l) (ha : ∀ l, W l ∨ A l → W' l ∨ A' l)
    (h : x.UsesAt m R W A) : x.UsesAt m R W' A' := by
  induction x with
  | ret a => trivial
  | read l k ih => exact h.imp (fun h => ⟨h.1, ih _ h.2⟩) (fun h => ⟨hw _ h.1, fun v => ih v (h.2 v)⟩)
  | write l v k ih => exact ⟨hw _ h.1, ih h.2⟩
  | modify a l g k ih => exact ⟨ha _ h.1, ih h.2⟩

/-- What has been put on the console, and by whom. -/
structure ConsoleInv (T : Str) (m : LogPlace → LogCell) (ps : List (LP α)) (s : Machine LogPlace LogCell α) (w : List (Nat × Byte)) : Prop where
  text : s.mem .console = .text (T ++ w.map (·.2))
  nobody : ∀ i, s.threads.length ≤ i → w.filter (·.1 = i) = []
  own : ∀ (i : Nat) (x p : LP α), s.threads[i]? = some x → ps[i]? = some p → Pushes x ∧ (w.filter (·.1 = i)).map (·.2) ++ pending x s.mem = pending p m
  atomic : ∀ a ∈ s.log, a.loc = .console → a.kind = .atomic

theorem console_step {W : Nat → LogPlace → Prop} (hd : Split (fun _ => logConfig) W fun l => l = .console) {T : Str} {m : LogPlace → LogCell}
    {ps : List (LP α)} {s : Machine LogPlace LogCell α} {w : List (Nat × Byte)} (h : ThreadInv (fun _ => logConfig) W (fun l => l = .console) m ps s)
    (hc : ConsoleInv T m ps s w) (i : Nat) : ∃ w', ConsoleInv T m ps (s.step i) w' := by
  have hW : ∀ j, ¬ W j .console := fun j => (hd.shared j .console rfl).2
  have other : ∀ j, i ≠ j → ∀ y, s.threads[j]? = some y → pending y (s.step i).mem = pending y s.mem := by
    intro j hij y hy
    have hu := usesAt_mono (W' := fun l => W j l ∨ l = .console) (A' := fun _ => False) y (fun l hl => Or.inl hl) (fun l hl => Or.inl hl) (h.stays j y hy)
    have hb : ∀ l, logConfig l ∨ (W j l ∨ l = .console) → blank (s.step i).mem l = blank s.mem l := by
      intro l hl
      unfold blank
      split
      · rfl
      · rename_i hne
        exact h.step_mem hd i j hij l (hl.imp id (fun h => h.resolve_right hne))
    have c := alone_congr (m0 := m) (R := logConfig) (W := fun l => W j l ∨ l = .console) (A := fun _ => False)
      (fun l r => ⟨fun hw => hw.elim (hd.read j j l r) (fun e => by subst e; exact r), id⟩) (fun l ha => ha.elim) y hu _ _ hb
      (fun l r => by
        rw [hb l (Or.inl r)]
        have : l ≠ .console := fun e => by subst e; exact r
        rw [blank, if_neg this]
        exact h.known hd j l r)
    unfold pending
    rw [c.2.1 .console (Or.inr (Or.inr rfl))]
  have len : (s.step i).threads.length = s.threads.length := (h.step hd i).len.trans h.len.symm
  cases hx : s.threads[i]? with
  | none =>
    have : s.step i = s := by unfold Machine.step; rw [hx]
    rw [this]
    exact ⟨w, hc⟩
  | some x =>
    have hi : i < s.threads.length := (List.getElem?_eq_some_iff.1 hx).1
    have hu := h.stays i x hx
    -- an access elsewhere
    have away : ∀ (y : LP α), (s.step i).threads[i]? = some y → (s.step i).mem .console = s.mem .console → Pushes y →
        pending y (s.step i).mem = pending x s.mem → (∀ a ∈ (s.step i).log, a.loc = .console → a.kind = .atomic) → ∃ w', ConsoleInv T m ps (s.step i) w' := by
      intro y hy hm hp he hat
      refine ⟨w, by rw [hm]; exact hc.text, fun j hj => hc.nobody j (len ▸ hj), fun j z p hj hps => ?_, hat⟩
      by_cases hij : i = j
      · subst hij
        rw [hy] at hj
        injection hj with hj
        subst hj
        exact ⟨hp, by rw [he]; exact (hc.own i x p hx hps).2⟩
      · rw [step_other s i j hij] at hj
        rw [other j hij z hj]
        exact hc.own j z p hj hps
    have hps : ∃ p, ps[i]? = some p := ⟨_, List.getElem?_eq_getElem (h.len ▸ hi)⟩
    obtain ⟨p, hp⟩ := hps
    have hpush := (hc.own i x p hx hp).1
    cases x with
    | ret a =>
      have : s.step i = s := by unfold Machine.step; rw [hx]
      rw [this]
      exact ⟨w, hc⟩
    | read l k =>
      refine away (k (s.mem l)) (by simp only [Machine.step, hx]; exact List.getElem?_set_self hi) (by simp [Machine.step, hx]) (hpush.2 _) ?_ ?_
      · simp only [Machine.step, hx, pending, Prog.alone]
        rw [show blank s.mem l = s.mem l from if_neg hpush.1]
      · simp only [Machine.step, hx]
        intro a ha hl
        rcases List.mem_append.1 ha with ha | ha
        · exact hc.atomic a ha hl
        · rw [List.mem_singleton.1 ha] at hl
          exact absurd hl hpush.1
    | write l v k =>
      refine away k (by simp only [Machine.step, hx]; exact List.getElem?_set_self hi) (by simp [Machine.step, hx, Ne.symm hpush.1]) hpush.2 ?_ ?_
      · simp only [Machine.step, hx, pending, Prog.alone]
        rw [blank_update _ _ hpush.1]
      · simp only [Machine.step, hx]
        intro a ha hl
        rcases List.mem_append.1 ha with ha | ha
        · exact hc.atomic a ha hl
        · rw [List.mem_singleton.1 ha] at hl
          exact absurd hl hpush.1
    | modify b l f k =>
      by_cases hl : l = .console
      · obtain ⟨hb, c, hf⟩ := hpush.1 hl
        subst hl hb hf
        refine ⟨w ++ [(i, c)], ?_, fun j hj => ?_, fun j z p' hj hps => ?_, ?_⟩
        · simp [Machine.step, hx, hc.text, LogCell.push, LogCell.asText]
        · have hj' : s.threads.length ≤ j := len ▸ hj
          rw [List.filter_append, hc.nobody j hj']
          have : i ≠ j := by omega
          simp [this]
        · by_cases hij : i = j
          · subst hij
            have hz : z = k := by
              simp only [Machine.step, hx] at hj
              rw [List.getElem?_set_self hi] at hj
              injection hj with hj
              exact hj.symm
            subst hz
            refine ⟨hpush.2, ?_⟩
            rw [← (hc.own i _ p' hx hps).2]
            have e : pending (Prog.modify true LogPlace.console (LogCell.push [c]) z) s.mem = c :: pending z (s.step i).mem := by
              have hb : blank (s.step i).mem = blank s.mem := by
                funext l'
                unfold blank
                by_cases e : l' = .console
                · rw [if_pos e, if_pos e]
                · rw [if_neg e, if_neg e]
                  simp [Machine.step, hx, e]
              unfold pending
              rw [hb]
              simp only [Prog.alone]
              obtain ⟨t, h1, h2⟩ := pushes_alone z hpush.2 (fun l' => if l' = LogPlace.console then LogCell.push [c] (blank s.mem .console) else blank s.mem l')
                (blank s.mem) [c] [] (fun l' hl => if_neg hl) rfl rfl
              rw [h1, h2]
              rfl
            rw [e]
            simp
          · rw [step_other s i j hij] at hj
            rw [other j hij z hj, List.filter_append]
            have := hc.own j z p' hj hps
            simpa [hij] using this
        · simp only [Machine.step, hx]
          intro a ha hl
          rcases List.mem_append.1 ha with ha | ha
          · exact hc.atomic a ha hl
          · rw [List.mem_singleton.1 ha]
            rfl
      · refine away k (by simp only [Machine.step, hx]; exact List.getElem?_set_self hi) (by simp [Machine.step, hx, Ne.symm hl]) hpush.2 ?_ ?_
        · simp only [Machine.step, hx, pending, Prog.alone]
          rw [show blank s.mem l = s.mem l from if_neg hl, blank_update _ _ hl]
        · simp only [Machine.step, hx]
          intro a ha hl'
          rcases List.mem_append.1 ha with ha | ha
          · exact hc.atomic a ha hl'
          · rw [List.mem_singleton.1 ha] at hl'
            exact absurd hl' hl

theorem console_run {W : Nat → LogPlace → Prop} (hd : Split (fun _ => logConfig) W fun l => l = .console) {T : Str} {m : LogPlace → LogCell}
    {ps : List (LP α)} (hm : m .console = .text T) (hp : ∀ (i : Nat) (p : LP α), ps[i]? = some p → p.UsesAt m logConfig (W i) fun l => l = .console)
    (hpu : ∀ p ∈ ps, Pushes p) (sched : List Nat) :
    ThreadInv (fun _ => logConfig) W (fun l => l = .console) m ps ((Machine.start m ps).run sched) ∧
      ∃ w, ConsoleInv T m ps ((Machine.start m ps).run sched) w := by
  have h0 : ThreadInv (fun _ => logConfig) W (fun l => l = .console) m ps (Machine.start m ps) := ThreadInv.start m ps hp
  have c0 : ConsoleInv T m ps (Machine.start m ps) [] := by
    refine ⟨by simpa [Machine.start] using hm, fun _ _ => rfl, fun i x p hx hp => ?_, fun a ha => by simp [Machine.start] at ha⟩
    have e : (Machine.start m ps).threads[i]? = ps[i]? := rfl
    rw [e, hp] at hx
    injection hx with hx
    subst hx
    exact ⟨hpu _ (List.mem_of_getElem? hp), rfl⟩
  have c0' : ∃ w, ConsoleInv T m ps (Machine.start m ps) w := ⟨_, c0⟩
  clear c0
  unfold Machine.run
  generalize Machine.start m ps = s at h0 c0'
  induction sched generalizing s with
  | nil => exact ⟨h0, c0'⟩
  | cons i is ih =>
    obtain ⟨w, c0⟩ := c0'
    exact ih _ (h0.step hd i) (console_step hd h0 c0 i)

/-! ## Theorems -/

theorem client_pending (cout : Nat → Bool) (g : Log) (σ : SinkSpec) (h : LogShows g σ) (T : Str) (S : Nat → Str) (c : LogClient) (ho : c.OnlyLogs) :
    pending (c.prog cout) (logMem g T S) = consoleText σ cout (c.said g) := by
  have h1 := pending_eq (c.prog cout) (pushes_client cout c ho) (logMem g T S) T rfl
  rw [client_alone cout g σ h c ho T S] at h1
  injection h1 with h1
  exact (List.append_cancel_left h1).symm

/-- Threads that only log, while nobody changes sinks or levels: if the stream of each sink that does not write to `std::cout` receives messages from one thread
only, there is no race in any schedule, and levels and sinks stay as they are. At every moment the console has, behind what was there, a mix of the characters
of the threads, each in order; a thread that has finished has all its lines in it. It got the right answers. When all have finished, each other stream has the
lines of its thread. -/
theorem C128_lines (g : Log) (σ : SinkSpec) (h : LogShows g σ) (cout : Nat → Bool) (T : Str) (S : Nat → Str) (cs : List LogClient)
    (ho : ∀ c ∈ cs, c.OnlyLogs)
    (hs : ∀ s, cout s = false → ∃ i, ∀ (j : Nat) (c : LogClient), j ≠ i → cs[j]? = some c → ∀ p ∈ c.said g, s ∉ σ.receivers p.1) (sched : List Nat) :
    let st := (Machine.start (logMem g T S) (cs.map (·.prog cout))).run sched
    ¬ Race st.log ∧ (st.mem .lowest = .level g.lowest ∧ st.mem .sinks = .sinks g.sinks ∧ ∀ s, st.mem (.level s) = logMem g T S (.level s)) ∧
      (∃ t part, st.mem .console = .text (T ++ t) ∧ Mix part t ∧
        ∀ i, part i <+: ((cs[i]?).map fun c => consoleText σ cout (c.said g)).getD [] ∧
          (Finished st i → part i = ((cs[i]?).map fun c => consoleText σ cout (c.said g)).getD [])) ∧
      (∀ (i : Nat) c as, cs[i]? = some c → st.threads[i]? = some (.ret as) → as = c.answers g) ∧
      ((∀ i < cs.length, Finished st i) → ∀ s, cout s = false →
        st.mem (.stream s) = .text (S s ++ cs.flatMap fun c => streamText σ s (c.said g))) := by
  intro st
  have hch : ∃ owner : Nat → Nat, ∀ s, cout s = false → ∀ (j : Nat) (c : LogClient), j ≠ owner s → cs[j]? = some c → ∀ p ∈ c.said g, s ∉ σ.receivers p.1 := by
    refine ⟨fun s => if hc : cout s = false then (hs s hc).choose else 0, fun s hc => ?_⟩
    dsimp only
    rw [dif_pos hc]
    exact (hs s hc).choose_spec
  obtain ⟨owner, how⟩ := hch
  let W : Nat → LogPlace → Prop := fun i l => match l with
    | .stream s => owner s = i
    | _ => False
  have hd : Split (fun _ => logConfig) W fun l => l = .console := by
    refine ⟨fun i j l hr hw => ?_, fun i j hij l hi hj => ?_, fun i l hl => ?_⟩
    · cases l <;> first | exact hr | exact hw
    · cases l <;> first | exact hi | exact hij (Eq.trans (Eq.symm hi) hj)
    · subst hl; exact ⟨id, id⟩
  have hu : ∀ (i : Nat) (p : LP (List LogAns)), (cs.map (·.prog cout))[i]? = some p → p.UsesAt (logMem g T S) logConfig (W i) fun l => l = .console := by
    intro i p hp
    rw [List.getElem?_map] at hp
    cases hi : cs[i]? with
    | none => rw [hi] at hp; cases hp
    | some c =>
      rw [hi] at hp
      injection hp with hp
      subst hp
      refine client_uses (W := W i) (A := fun l => l = .console) cout g σ h T S (Or.inr rfl) c (ho c (List.mem_of_getElem? hi)) fun p hp s hr hc => Or.inl ?_
      by_contra hne
      exact how s hc i c (fun e => hne e.symm) hi p hp hr
  have hpu : ∀ p ∈ cs.map (·.prog cout), Pushes p := by
    intro p hp
    obtain ⟨c, hc, rfl⟩ := List.mem_map.1 hp
    exact pushes_client cout c (ho c hc)
  obtain ⟨inv, w, con⟩ := console_run hd (T := T) (m := logMem g T S) (ps := cs.map (·.prog cout)) rfl hu hpu sched
  have hget : ∀ (i : Nat) c, cs[i]? = some c → (cs.map (·.prog cout))[i]? = some (c.prog cout) := by
    intro i c hi
    rw [List.getElem?_map, hi]; rfl
  have hlen : st.threads.length = cs.length := by rw [inv.len, List.length_map]
  refine ⟨log_no_race hd inv.log con.atomic, ⟨?_, ?_, fun s => ?_⟩, ⟨_, fun i => (w.filter (·.1 = i)).map (·.2), con.text, ⟨w, rfl, fun _ => rfl⟩, fun i => ?_⟩,
    fun i c as hi hf => ?_, fun hf s hc => ?_⟩
  · exact inv.known hd 0 .lowest trivial
  · exact inv.known hd 0 .sinks trivial
  · exact inv.known hd 0 (.level s) trivial
  · dsimp only
    cases hi : cs[i]? with
    | none =>
      have : cs.length ≤ i := List.getElem?_eq_none_iff.1 hi
      rw [con.nobody i (hlen ▸ this)]
      simp
    | some c =>
      have hc := ho c (List.mem_of_getElem? hi)
      have hlt : i < st.threads.length := by
        rw [hlen]; exact (List.getElem?_eq_some_iff.1 hi).1
      obtain ⟨-, e⟩ := con.own i _ _ (List.getElem?_eq_getElem hlt) (hget i c hi)
      rw [client_pending cout g σ h T S c hc] at e
      simp only [Option.map_some, Option.getD_some]
      refine ⟨⟨_, e⟩, ?_⟩
      rintro ⟨a, ha⟩
      obtain ⟨-, e⟩ := con.own i _ _ ha (hget i c hi)
      rw [client_pending cout g σ h T S c hc] at e
      rw [← e]
      simp [pending, Prog.alone, blank, LogCell.asText]
  · have := (inv.same i _ _ hf (hget i c hi)).1
    rw [client_alone cout g σ h c (ho c (List.mem_of_getElem? hi)) T S] at this
    exact this
  · have zero : ∀ (i : Nat) c, i ≠ owner s → cs[i]? = some c → streamText σ s (c.said g) = [] := by
      intro i c hne hi
      unfold streamText
      rw [List.flatMap_eq_nil_iff]
      intro p hp
      rw [if_neg (how s hc i c hne hi p hp)]
    have flat : ∀ (l : List LogClient) (k : Nat), (∀ (i : Nat) c, i + k ≠ owner s → l[i]? = some c → streamText σ s (c.said g) = []) →
        l.flatMap (fun c => streamText σ s (c.said g)) =
          if k ≤ owner s then ((l[owner s - k]?).map fun c => streamText σ s (c.said g)).getD [] else [] := by
      intro l
      induction l with
      | nil => intro k _; simp
      | cons c l ih =>
        intro k hk
        rw [List.flatMap_cons, ih (k + 1) (fun i c' hne hi => hk (i + 1) c' (by omega) (by simpa using hi))]
        by_cases e : owner s = k
        · rw [if_neg (by omega), if_pos (by omega), e]
          simp
        · rw [hk 0 c (by omega) rfl]
          by_cases hle : k ≤ owner s
          · rw [if_pos (by omega), if_pos hle, show owner s - k = (owner s - (k + 1)) + 1 by omega]
            simp
          · rw [if_neg (by omega), if_neg hle]
            rfl
    rw [flat cs 0 (fun i c hne hi => zero i c (by omega) hi), if_pos (Nat.zero_le _), Nat.sub_zero]
    cases hi : cs[owner s]? with
    | none =>
      simp only [Option.map_none, Option.getD_none, List.append_nil]
      refine inv.rest (.stream s) (fun i hlt hw => ?_) (by simp)
      have hw : owner s = i := hw
      have : cs.length ≤ owner s := List.getElem?_eq_none_iff.1 hi
      rw [List.length_map] at hlt
      omega
    | some c =>
      have hlt : owner s < cs.length := (List.getElem?_eq_some_iff.1 hi).1
      obtain ⟨a, ha⟩ := hf _ hlt
      have := (inv.same _ _ _ ha (hget _ c hi)).2.1 (.stream s) (Or.inr rfl)
      rw [client_alone cout g σ h c (ho c (List.mem_of_getElem? hi)) T S] at this
      simp only [Option.map_some, Option.getD_some]
      refine Eq.trans this ?_
      simp [logMem, hc]

theorem logStringP_trace (cout : Nat → Bool) (g : Log) (l : Nat) (msg : Str) (s : Nat) (hc : cout s = false) :
    ∀ (ss : List Nat) (sent : List (Nat × Nat × Str)) (T : Str) (S : Nat → Str), g.logString l msg ss = .ok sent → (∃ p ∈ sent, p.1 = s) →
    (LogPlace.stream s, Kind.write) ∈ (logStringP cout l msg ss).trace (logMem g T S) := by
  intro ss
  induction ss with
  | nil =>
    intro sent T S h hp
    injection h with h
    subst h
    obtain ⟨p, hp, -⟩ := hp
    cases hp
  | cons t ss ih =>
    intro sent T S h hp
    obtain ⟨own, rest, ho, hr, rfl⟩ := logString_cons h
    have e : (logMem g T S (.level t)).asLevel = own := by simp [logMem, LogCell.asLevel, ho]
    simp only [logStringP, Prog.trace, e]
    refine List.mem_cons_of_mem _ ?_
    by_cases hl : own ≤ l
    · rw [if_pos hl, trace_bind, sendP_alone cout g T S t l msg]
      rw [if_pos hl] at hp
      obtain ⟨p, hp, he⟩ := hp
      rcases List.mem_cons.1 hp with rfl | hp
      · refine List.mem_append_left _ ?_
        have he : t = s := he
        subst he
        simp [sendP, hc, Prog.trace]
      · exact List.mem_append_right _ (ih rest _ _ hr ⟨p, hp, he⟩)
    · rw [if_neg hl]
      rw [if_neg hl] at hp
      exact ih rest T S hr hp

theorem client_trace (cout : Nat → Bool) (g : Log) (σ : SinkSpec) (h : LogShows g σ) (s : Nat) (hc : cout s = false) (c : LogClient) (ho : c.OnlyLogs) :
    ∀ (T : Str) (S : Nat → Str), (∃ p ∈ c.said g, s ∈ σ.receivers p.1) → (LogPlace.stream s, Kind.write) ∈ (c.prog cout).trace (logMem g T S) := by
  induction c with
  | done => rintro T S ⟨p, hp, -⟩; cases hp
  | call c next ih =>
    rintro T S ⟨p, hp, hr⟩
    cases c with
    | message l msg =>
      simp only [LogClient.prog, LogCall.run, trace_bind, alone_bind', Prog.alone]
      rw [messageP_alone cout g l msg _ T S (h.message l msg)]
      simp only [LogClient.said] at hp
      rcases List.mem_cons.1 hp with rfl | hp
      · refine List.mem_append_left _ (List.mem_append_left _ ?_)
        have hm := h.message l msg
        unfold Log.message at hm
        have e : (logMem g T S .lowest).asLevel = g.lowest := rfl
        have e' : (logMem g T S .sinks).asSinks = g.sinks := rfl
        simp only [messageP, Prog.trace, e]
        by_cases hl : g.lowest ≤ l
        · rw [if_pos (by simpa [Log.testLevel] using hl)] at hm
          rw [if_pos hl]
          simp only [Prog.trace, e']
          refine List.mem_cons_of_mem _ (List.mem_cons_of_mem _ (logStringP_trace cout g l msg s hc _ _ T S hm ⟨(s, l, msg), List.mem_map.2 ⟨s, hr, rfl⟩, rfl⟩))
        · rw [if_neg (by simpa [Log.testLevel] using hl)] at hm
          injection hm with hm
          have hr : s ∈ σ.receivers l := hr
          rw [List.map_eq_nil_iff.1 hm.symm] at hr
          cases hr
      · exact List.mem_append_right _ (List.mem_append_left _ (ih .none (ho.2 _) _ _ ⟨p, hp, hr⟩))
    | testLevel l =>
      simp only [LogClient.prog, LogCall.run, Prog.bind, Prog.trace, trace_bind]
      refine List.mem_cons_of_mem _ (List.mem_append_left _ ?_)
      exact ih _ (ho.2 _) T S ⟨p, hp, hr⟩
    | _ => exact absurd ho.1 (by simp [LogCall.onlyLogs])

theorem mem_ofThread {L : Type} (i : Nat) (log : List (Access L)) (l : L) (kd : Kind) (h : (l, kd) ∈ ofThread i log) :
    ∃ a ∈ log, a.thread = i ∧ a.loc = l ∧ a.kind = kd := by
  obtain ⟨a, ha, e⟩ := List.mem_map.1 h
  obtain ⟨ha, hi⟩ := List.mem_filter.1 ha
  injection e with e1 e2
  exact ⟨a, ha, by simpa using hi, e1, e2⟩

/-- That several threads may log to a file is false: whenever two threads that have each logged a message which a sink with a stream of its own receives have
finished, there has been a race. -/
theorem C128_file_refuted (g : Log) (σ : SinkSpec) (h : LogShows g σ) (cout : Nat → Bool) (T : Str) (S : Nat → Str) (cs : List LogClient)
    (ho : ∀ c ∈ cs, c.OnlyLogs) (s : Nat) (hc : cout s = false) (i j : Nat) (hij : i ≠ j) (c c' : LogClient) (hi : cs[i]? = some c) (hj : cs[j]? = some c')
    (hr : ∃ p ∈ c.said g, s ∈ σ.receivers p.1) (hr' : ∃ p ∈ c'.said g, s ∈ σ.receivers p.1) (sched : List Nat)
    (hf : Finished ((Machine.start (logMem g T S) (cs.map (·.prog cout))).run sched) i)
    (hf' : Finished ((Machine.start (logMem g T S) (cs.map (·.prog cout))).run sched) j) :
    Race ((Machine.start (logMem g T S) (cs.map (·.prog cout))).run sched).log := by
  have hd : Split (fun _ => logConfig) (fun _ _ => False) fun l => ¬ logConfig l := ⟨fun _ _ _ _ => id, fun _ _ _ _ h => h.elim, fun _ _ h => ⟨h, id⟩⟩
  have hu : ∀ (i : Nat) (p : LP (List LogAns)), (cs.map (·.prog cout))[i]? = some p →
      p.UsesAt (logMem g T S) logConfig (fun _ => False) fun l => ¬ logConfig l := by
    intro i p hp
    rw [List.getElem?_map] at hp
    cases hi : cs[i]? with
    | none => rw [hi] at hp; cases hp
    | some c =>
      rw [hi] at hp
      injection hp with hp
      subst hp
      exact client_uses (W := fun _ => False) (A := fun l => ¬ logConfig l) cout g σ h T S (Or.inr id) c (ho c (List.mem_of_getElem? hi))
        fun p hp s hr hc => Or.inr id
  have inv := inv_run hd (logMem g T S) (cs.map (·.prog cout)) hu sched
  have key : ∀ (i : Nat) c, cs[i]? = some c → (∃ p ∈ c.said g, s ∈ σ.receivers p.1) →
      Finished ((Machine.start (logMem g T S) (cs.map (·.prog cout))).run sched) i →
      ∃ a ∈ ((Machine.start (logMem g T S) (cs.map (·.prog cout))).run sched).log, a.thread = i ∧ a.loc = .stream s ∧ a.kind = .write := by
    rintro i c hi hr ⟨a, ha⟩
    have e := (inv.same i _ (c.prog cout) ha (by rw [List.getElem?_map, hi]; rfl)).2.2
    refine mem_ofThread i _ _ _ ?_
    simp only [Prog.trace, List.append_nil] at e
    rw [e]
    exact client_trace cout g σ h s hc c (ho c (List.mem_of_getElem? hi)) T S hr
  obtain ⟨a, ha, a1, a2, a3⟩ := key i c hi hr hf
  obtain ⟨b, hb, b1, b2, b3⟩ := key j c' hj hr' hf'
  exact ⟨a, ha, b, hb, by rw [a1, b1]; exact hij, by rw [a2, b2], Or.inl (by rw [a3]; decide), by rw [a3]; simp⟩

theorem must_onlyLogs (cout : Nat → Bool) (c : LogCall) (hc : c.onlyLogs = true) : (c.run cout).Must .lowest .read := by
  cases c with
  | message l msg => exact Or.inl ⟨rfl, rfl⟩
  | testLevel l => exact Or.inl ⟨rfl, rfl⟩
  | _ => exact absurd hc (by simp [LogCall.onlyLogs])

theorem must_setsGlobal (cout : Nat → Bool) (c : LogCall) (hc : c.setsGlobal = true) : (c.run cout).Must .lowest .write := by
  have hg : getGlobalP.Must .lowest .write := Or.inl ⟨rfl, rfl⟩
  cases c with
  | getGlobal => exact must_bind_left _ _ hg
  | setGlobal l =>
    exact must_bind_left _ _ (Or.inr fun v => must_bind_right _ _ fun _ => Or.inl ⟨rfl, rfl⟩)
  | setLevel s l => exact must_bind_left _ _ (Or.inr (must_bind_left _ _ hg))
  | remove s =>
    refine must_bind_left _ _ (Or.inr fun v => ?_)
    dsimp only
    split
    · exact Or.inr (must_bind_left _ _ hg)
    · exact must_bind_left _ _ hg
  | _ => exact absurd hc (by simp [LogCall.setsGlobal])

/-- That a thread may change levels or remove sinks, or even ask for the global level, while another logs is false: whenever both have finished there has been
a race, whatever else goes on and even if no message was sent. -/
theorem C128_levels_refuted (m : LogPlace → LogCell) (cout : Nat → Bool) (cs : List LogClient) (i j : Nat) (hij : i ≠ j) (c c' : LogCall)
    (k k' : LogAns → LogClient) (hi : cs[i]? = some (.call c k)) (hj : cs[j]? = some (.call c' k')) (hc : c.onlyLogs = true ∨ c.setsGlobal = true)
    (hc' : c'.setsGlobal = true) (sched : List Nat)
    (hf : Finished ((Machine.start m (cs.map (·.prog cout))).run sched) i) (hf' : Finished ((Machine.start m (cs.map (·.prog cout))).run sched) j) :
    Race ((Machine.start m (cs.map (·.prog cout))).run sched).log := by
  obtain ⟨a, ha⟩ := hf
  obtain ⟨b, hb⟩ := hf'
  have gi : (cs.map (·.prog cout))[i]? = some ((LogClient.call c k).prog cout) := by rw [List.getElem?_map, hi]; rfl
  have gj : (cs.map (·.prog cout))[j]? = some ((LogClient.call c' k').prog cout) := by rw [List.getElem?_map, hj]; rfl
  obtain ⟨y, hy, y1, y2, y3⟩ := must_finished m _ j _ gj (must_bind_left _ _ (must_setsGlobal cout c' hc')) sched b hb
  have hx : ∃ x ∈ ((Machine.start m (cs.map (·.prog cout))).run sched).log, x.thread = i ∧ x.loc = .lowest := by
    rcases hc with hc | hc
    · obtain ⟨x, hx, x1, x2, -⟩ := must_finished m _ i _ gi (must_bind_left _ _ (must_onlyLogs cout c hc)) sched a ha
      exact ⟨x, hx, x1, x2⟩
    · obtain ⟨x, hx, x1, x2, -⟩ := must_finished m _ i _ gi (must_bind_left _ _ (must_setsGlobal cout c hc)) sched a ha
      exact ⟨x, hx, x1, x2⟩
  obtain ⟨x, hx, x1, x2⟩ := hx
  exact ⟨x, hx, y, hy, by rw [x1, y1]; exact hij, by rw [x2, y2], Or.inr (by rw [y3]; decide), by rw [y3]; simp⟩

theorem lowestLoopP_alone (g : Log) : ∀ (ss : List Nat) (low low' : Nat) (T : Str) (S : Nat → Str), g.lowestLoop ss low = .ok low' →
    (lowestLoopP ss).alone (logMem { g with lowest := low } T S) = ((), logMem { g with lowest := low' } T S) := by
  intro ss
  induction ss with
  | nil =>
    intro low low' T S h
    injection h with h
    subst h
    rfl
  | cons s ss ih =>
    intro low low' T S h
    simp only [Log.lowestLoop, Log.levelOf] at h
    cases ho : g.objects s with
    | none => rw [ho] at h; cases h
    | some l =>
      rw [ho] at h
      have h : g.lowestLoop ss (if l < low then l else low) = .ok low' := h
      have e : (logMem { g with lowest := low } T S (.level s)) = .level l := by simp [logMem, ho]
      have e' : (logMem { g with lowest := low } T S .lowest).asLevel = low := rfl
      simp only [lowestLoopP, Prog.alone, e, e']
      have e2 : (LogCell.level l).asLevel = l := rfl
      rw [e2]
      by_cases hl : l < low
      · rw [if_pos hl]
        rw [if_pos hl] at h
        simp only [Prog.alone, e]
        have : (fun l' => if l' = LogPlace.lowest then LogCell.level l else logMem { g with lowest := low } T S l') = logMem { g with lowest := l } T S := by
          funext p; cases p <;> rfl
        rw [this]
        exact ih l low' T S h
      · rw [if_neg hl]
        rw [if_neg hl] at h
        exact ih low low' T S h

theorem getGlobalP_alone (g g' : Log) (l : Nat) (T : Str) (S : Nat → Str) (h : g.getGlobalLevel = .ok (l, g')) :
    getGlobalP.alone (logMem g T S) = (l, logMem g' T S) := by
  unfold Log.getGlobalLevel at h
  cases hl : g.lowestLoop g.sinks criticalLevel with
  | ok low =>
    rw [hl] at h
    injection h with h
    injection h with h1 h2
    subst h1 h2
    have : (fun l' => if l' = LogPlace.lowest then LogCell.level criticalLevel else logMem g T S l') = logMem { g with lowest := criticalLevel } T S := by
      funext p; cases p <;> rfl
    simp only [getGlobalP, Prog.alone, this, alone_bind']
    have e : (if LogPlace.sinks = LogPlace.lowest then LogCell.level criticalLevel else logMem g T S .sinks).asSinks = g.sinks := rfl
    rw [e, lowestLoopP_alone g _ _ _ T S hl]
    rfl
  | throws e => rw [hl] at h; cases h
  | ub => rw [hl] at h; cases h
  | diverges => rw [hl] at h; cases h

theorem bind_ok {x : Res α} {f : α → Res β} {b : β} (h : (x >>= f) = .ok b) : ∃ a, x = .ok a ∧ f a = .ok b := by
  cases x with
  | ok a => exact ⟨a, rfl, h⟩
  | throws e => cases h
  | ub => cases h
  | diverges => cases h

theorem setLevelP_alone (g g' : Log) (s l : Nat) (T : Str) (S : Nat → Str) (h : g.setLevel s l = .ok g') :
    (setLevelP s l).alone (logMem g T S) = ((), logMem g' T S) := by
  unfold Log.setLevel at h
  cases ho : g.objects s with
  | none => rw [ho] at h; cases h
  | some own =>
    rw [ho] at h
    obtain ⟨⟨low, g1⟩, hg, h⟩ := bind_ok h
    injection h with h
    subst h
    have : (fun l' => if l' = LogPlace.level s then LogCell.level l else logMem g T S l') =
        logMem { g with objects := Function.update g.objects s (some l) } T S := by
      funext p
      cases p with
      | level t =>
        by_cases e : t = s
        · subst e; simp [logMem]
        · simp [logMem, e]
      | _ => rfl
    simp only [setLevelP, Prog.alone, this, alone_bind', getGlobalP_alone _ _ _ T S hg]

theorem setGlobalLoopP_alone (l : Nat) (T : Str) (S : Nat → Str) : ∀ (ss : List Nat) (g g' : Log), Log.setGlobalLoop l ss g = .ok g' →
    (setGlobalLoopP l ss).alone (logMem g T S) = ((), logMem g' T S) := by
  intro ss
  induction ss with
  | nil =>
    intro g g' h
    injection h with h
    subst h
    rfl
  | cons s ss ih =>
    intro g g' h
    obtain ⟨g1, h1, h2⟩ := bind_ok h
    simp only [setGlobalLoopP, alone_bind', setLevelP_alone g g1 s l T S h1]
    exact ih g1 g' h2

/-- Without other threads a call does what the model without threads says: those that change levels and sinks, and messages, which go to the sinks that it
names. -/
theorem C128_alone (cout : Nat → Bool) (g : Log) (T : Str) (S : Nat → Str) (c : LogCall) :
    (∀ op g', c.op = some op → g.run op = .ok g' → ((c.run cout).alone (logMem g T S)).2 = logMem g' T S) ∧
      (∀ l g', c = .getGlobal → g.getGlobalLevel = .ok (l, g') → ((c.run cout).alone (logMem g T S)).1 = .level l) ∧
      (∀ l, c = .testLevel l → (c.run cout).alone (logMem g T S) = (.bool (g.testLevel l), logMem g T S)) ∧
      ∀ l msg sent, c = .message l msg → g.message l msg = .ok sent → (c.run cout).alone (logMem g T S) =
        (.none, logMem g (T ++ (sent.filter fun p => cout p.1).flatMap fun p => p.2.2 ++ [10])
          fun s => S s ++ (sent.filter fun p => !cout s && p.1 == s).flatMap fun p => p.2.2 ++ [10]) := by
  refine ⟨fun op g' hop h => ?_, fun l g' hc h => ?_, fun l hc => ?_, fun l msg sent hc h => ?_⟩
  · cases c with
    | message l msg => cases hop
    | testLevel l => cases hop
    | getGlobal =>
      injection hop with hop
      subst hop
      obtain ⟨⟨low, g1⟩, hg, h⟩ := bind_ok h
      injection h with h
      subst h
      simp only [LogCall.run, alone_bind', getGlobalP_alone _ _ _ T S hg, Prog.alone]
    | setGlobal l =>
      injection hop with hop
      subst hop
      obtain ⟨g1, hg, h⟩ := bind_ok h
      injection h with h
      subst h
      have e : (logMem g T S .sinks).asSinks = g.sinks := rfl
      simp only [LogCall.run, setGlobalP, alone_bind', Prog.alone, e, setGlobalLoopP_alone l T S _ _ _ hg]
      funext p; cases p <;> rfl
    | setLevel s l =>
      injection hop with hop
      subst hop
      simp only [LogCall.run, alone_bind', setLevelP_alone g g' s l T S h, Prog.alone]
    | add s =>
      injection hop with hop
      subst hop
      have h : (match g.objects s with | none => Res.ub | some _ => g.addSink s) = .ok g' := h
      cases ho : g.objects s with
      | none => rw [ho] at h; cases h
      | some own =>
        rw [ho] at h
        have h : g.addSink s = .ok g' := h
        unfold Log.addSink at h
        have e : (logMem g T S .sinks).asSinks = g.sinks := rfl
        simp only [LogCall.run, addSinkP, alone_bind', Prog.alone, e]
        by_cases hm : s ∈ g.sinks
        · rw [if_pos hm] at h
          injection h with h
          subst h
          rw [if_pos hm]
          rfl
        · rw [if_neg hm] at h
          rw [if_neg hm]
          obtain ⟨⟨low, g1⟩, hg, h⟩ := bind_ok h
          injection h with h
          subst h
          have : (fun l' => if l' = LogPlace.sinks then LogCell.sinks (g.sinks ++ [s]) else logMem g T S l') = logMem { g with sinks := g.sinks ++ [s] } T S := by
            funext p; cases p <;> rfl
          simp only [Prog.alone, this, alone_bind', getGlobalP_alone _ _ _ T S hg]
    | remove s =>
      injection hop with hop
      subst hop
      obtain ⟨⟨low, g1⟩, hg, h⟩ := bind_ok h
      injection h with h
      subst h
      have e : (logMem g T S .sinks).asSinks = g.sinks := rfl
      simp only [LogCall.run, removeSinkP, alone_bind', Prog.alone, e]
      by_cases hm : s ∈ g.sinks
      · rw [if_pos hm]
        have : (fun l' => if l' = LogPlace.sinks then LogCell.sinks (g.sinks.erase s) else logMem g T S l') = logMem { g with sinks := g.sinks.erase s } T S := by
          funext p; cases p <;> rfl
        simp only [Prog.alone, this, alone_bind', getGlobalP_alone _ _ _ T S hg]
      · rw [if_neg hm]
        rw [List.erase_of_not_mem hm] at hg
        simp only [Prog.alone, alone_bind', getGlobalP_alone g _ _ T S hg]
  · subst hc
    simp only [LogCall.run, alone_bind', getGlobalP_alone _ _ _ T S h, Prog.alone]
  · subst hc; rfl
  · subst hc
    simp only [LogCall.run, alone_bind', messageP_alone cout g l msg sent T S h, Prog.alone]
    have e1 : ∀ q : Nat × Nat × Str → Bool, sent.flatMap (fun p => if q p then p.2.2 ++ [10] else []) = (sent.filter q).flatMap fun p => p.2.2 ++ [10] := by
      intro q
      clear h
      induction sent with
      | nil => rfl
      | cons p sent ih =>
        rw [List.flatMap_cons, ih]
        cases hq : q p <;> simp [hq]
    have e2 : sentConsole cout sent = (sent.filter fun p => cout p.1).flatMap fun p => p.2.2 ++ [10] := e1 fun p => cout p.1
    have e3 : ∀ s, sentStream cout sent s = (sent.filter fun p => !cout s && p.1 == s).flatMap fun p => p.2.2 ++ [10] := by
      intro s
      rw [← e1]
      simp [sentStream]
    rw [e2]
    simp only [e3]

-- A sink of level 1 at the console and one of level 2 with a file.
private def twoSinks : Log := { objects := Function.update (Function.update (fun _ => none) 0 (some 1)) 1 (some 2), sinks := [0, 1], lowest := 1 }

private def twoSinksSpec : SinkSpec := ⟨fun s => if s = 1 then some 2 else if s = 0 then some 1 else none, [0, 1]⟩

private theorem twoSinks_shows : LogShows twoSinks twoSinksSpec := by
  have h := C43_log [.create 0 1, .create 1 2]
  have e1 : Log.runAll [.create 0 1, .create 1 2] {} = .ok twoSinks := rfl
  have e2 : SinkSpec.run [.create 0 1, .create 1 2] SinkSpec.init = .ok twoSinksSpec := rfl
  rw [e1, e2] at h
  exact h

private def atConsole (s : Nat) : Bool := s = 0

private def logsIf (l : Nat) (msg : Str) : LogClient := .call (.testLevel l) fun
  | .bool true => .call (.message l msg) fun _ => .done
  | _ => .done

/-- That lines of different threads stay whole on the console is false: of two threads that each log one message, the characters can alternate. -/
theorem C128_mixed_refuted : ∃ (g : Log) (σ : SinkSpec) (cs : List LogClient) (sched : List Nat), LogShows g σ ∧ (∀ c ∈ cs, c.OnlyLogs) ∧
    cs.map (·.said g) = [[(1, b!"ab")], [(1, b!"cd")]] ∧
    let st := (Machine.start (logMem g [] fun _ => []) (cs.map (·.prog fun s => s = 0))).run sched
    (∀ i < 2, Finished st i) ∧ st.mem .console = .text (b!"acbd" ++ [10, 10]) := by
  refine ⟨twoSinks, twoSinksSpec, [.call (.message 1 b!"ab") fun _ => .done, .call (.message 1 b!"cd") fun _ => .done],
    [0, 0, 0, 1, 1, 1, 0, 1, 0, 1, 0, 1, 0, 1], twoSinks_shows, ?_, rfl, ?_, ?_⟩
  · intro c hc
    simp only [List.mem_cons, List.not_mem_nil, or_false] at hc
    rcases hc with rfl | rfl <;> exact ⟨rfl, fun _ => trivial⟩
  · intro i hi
    match i, hi with
    | 0, _ => exact ⟨_, rfl⟩
    | 1, _ => exact ⟨_, rfl⟩
  · rfl

-- The threads of the theorem on lines: two log to the console, the second to the file as well; each asks first whether its level is logged.
private def twoLoggers : List LogClient := [logsIf 1 b!"ab", logsIf 3 b!"cd", logsIf 0 b!"no"]

private theorem logsIf_only (l : Nat) (msg : Str) : (logsIf l msg).OnlyLogs := by
  refine ⟨rfl, fun a => ?_⟩
  dsimp only
  split
  · exact ⟨rfl, fun _ => trivial⟩
  · trivial

example (sched : List Nat) : ¬ Race ((Machine.start (logMem twoSinks b!"start" fun _ => []) (twoLoggers.map (·.prog atConsole))).run sched).log := by
  refine (C128_lines twoSinks twoSinksSpec twoSinks_shows atConsole b!"start" (fun _ => []) twoLoggers ?_ ?_ sched).1
  · intro c hc
    simp only [twoLoggers, List.mem_cons, List.not_mem_nil, or_false] at hc
    rcases hc with rfl | rfl | rfl <;> exact logsIf_only _ _
  · intro s hs
    refine ⟨1, fun j c hj hc p hp hr => ?_⟩
    match j, hc with
    | 0, hc =>
      injection hc with hc
      subst hc
      have : p = (1, b!"ab") := by simpa [logsIf, LogClient.said, Log.testLevel, twoSinks] using hp
      subst this
      have : s = 0 := by simpa [SinkSpec.receivers, twoSinksSpec] using hr
      subst this
      simp [atConsole] at hs
    | 1, _ => exact hj rfl
    | 2, hc =>
      injection hc with hc
      subst hc
      simp [logsIf, LogClient.said, Log.testLevel, twoSinks] at hp
    | n + 3, hc => simp [twoLoggers] at hc

example : twoLoggers.map (·.said twoSinks) = [[(1, b!"ab")], [(3, b!"cd")], []] ∧ consoleText twoSinksSpec atConsole [(3, b!"cd")] = b!"cd" ++ [10] ∧
    streamText twoSinksSpec 1 [(3, b!"cd")] = b!"cd" ++ [10] := by decide +kernel

-- Two threads that log to the file.
example : Race ((Machine.start (logMem twoSinks [] fun _ => []) ([logsIf 2 b!"ab", logsIf 3 b!"cd"].map (·.prog atConsole))).run
    [0, 0, 0, 0, 0, 0, 0, 0, 0, 0, 1, 1, 1, 1, 1, 1, 1, 1, 1, 1]).log := by
  refine C128_file_refuted twoSinks twoSinksSpec twoSinks_shows atConsole [] _ _ ?_ 1 rfl 0 1 (by decide) _ _ rfl rfl ⟨(2, b!"ab"), ?_, ?_⟩ ⟨(3, b!"cd"), ?_, ?_⟩ _ ⟨_, rfl⟩ ⟨_, rfl⟩
  · intro c hc
    simp only [List.mem_cons, List.not_mem_nil, or_false] at hc
    rcases hc with rfl | rfl <;> exact logsIf_only _ _
  all_goals decide +kernel

-- A thread that logs and one that changes a level.
example : Race ((Machine.start (logMem twoSinks [] fun _ => []) ([logsIf 1 b!"ab", .call (.setLevel 1 4) fun _ => .done].map (·.prog atConsole))).run
    [0, 0, 0, 0, 0, 0, 0, 0, 0, 0, 1, 1, 1, 1, 1, 1, 1, 1, 1, 1, 1, 1]).log :=
  C128_levels_refuted _ _ _ 0 1 (by decide) (.testLevel 1) (.setLevel 1 4) _ _ rfl rfl (Or.inl rfl) rfl _ ⟨_, rfl⟩ ⟨_, rfl⟩

end Flut.Threads
