import Verif.Proofs.StreamLife

/-! # Property theorems: how long a `char_stream` can be read (C139) -/

namespace Flut

open Spec StreamMem

/-- C139. Whatever a program does with streams and buffers, the calls return what they return for streams that are values, and a call is undefined
exactly if the text of the stream is gone (or if the call is undefined on a value). -/
theorem C139_values (bits : Nat) (ops : List StreamMem.Op) :
    Agree (fun p q => p.1 = q.1) (StreamMem.empty.run bits ops) (Streams.empty.run bits ops) := by
  have h := Shows.empty.run bits ops
  cases h1 : StreamMem.empty.run bits ops <;> cases h2 : Streams.empty.run bits ops <;> rw [h1, h2] at h <;> first | exact h.1 | exact h

/-- Steps that assign or destroy a stream. -/
def Ends (s : Nat) : StreamMem.Op → Prop
  | .assign s' _ => s' = s
  | .destroy s' => s' = s
  | _ => False

/-- Steps after which a keeper no longer keeps the text. -/
def Releases : Keeper → StreamMem.Op → Prop
  | .stream s, op => Ends s op
  | .buffer b, .free b' => b' = b
  | .buffer _, _ => False

/-- The calls of one stream in a program. -/
def callsOf (s : Nat) : List StreamMem.Op → List StreamOp
  | [] => []
  | .read s' op :: ops => if s' = s then op :: callsOf s ops else callsOf s ops
  | _ :: ops => callsOf s ops

/-- The calls of a stream on its own: what they return and the state afterwards. -/
def askAll (bits : Nat) : List StreamOp → CharStream → Res (List StreamAns × CharStream)
  | [], c => .ok ([], c)
  | op :: ops, c => do
    let (a, c') ← op.ask bits c
    let (as, c'') ← askAll bits ops c'
    .ok (a :: as, c'')

theorem values_step (bits : Nat) {v v' : Streams} {a : Option StreamAns} {t : Nat} {c : CharStream} {k : Keeper} (op : StreamMem.Op)
    (h : v.step bits op = .ok (a, v')) (ht : v.stream t = some ⟨c, some k⟩) (h1 : ¬ Ends t op) (h2 : ¬ Releases k op) :
    ∃ c' as, v'.stream t = some ⟨c', some k⟩ ∧ askAll bits (callsOf t [op]) c = .ok (as, c') := by
  have lose : ∀ k', k' ≠ k → (v.lose k').stream t = some ⟨c, some k⟩ := by
    intro k' hk
    simp only [Streams.lose, ht, Option.map_some]
    rw [if_neg (by simpa using hk.symm)]
  cases op with
  | buffer b text =>
    simp only [Streams.step] at h
    split at h <;> cases h
    exact ⟨c, [], ht, rfl⟩
  | free b =>
    simp only [Streams.step] at h
    split at h <;> cases h
    exact ⟨c, [], lose _ (by rintro rfl; exact h2 rfl), rfl⟩
  | fromBuffer s b delims =>
    simp only [Streams.step] at h
    split at h <;> cases h
    rename_i hs _
    exact ⟨c, [], by simp only [Streams.put]; rw [if_neg (by rintro rfl; rw [hs] at ht; cases ht), ht], rfl⟩
  | fromString s text delims =>
    simp only [Streams.step] at h
    split at h <;> cases h
    rename_i hs
    exact ⟨c, [], by simp only [Streams.put]; rw [if_neg (by rintro rfl; rw [hs] at ht; cases ht), ht], rfl⟩
  | copy s u =>
    simp only [Streams.step] at h
    split at h <;> cases h
    rename_i hs _
    exact ⟨c, [], by simp only [Streams.put]; rw [if_neg (by rintro rfl; rw [hs] at ht; cases ht), ht], rfl⟩
  | assign s u =>
    simp only [Streams.step] at h
    split at h
    · split at h <;> cases h
      · exact ⟨c, [], ht, rfl⟩
      · refine ⟨c, [], ?_, rfl⟩
        simp only [Streams.put]
        rw [if_neg (by rintro rfl; exact h1 rfl)]
        exact lose _ (by rintro rfl; exact h2 rfl)
    · cases h
  | destroy s =>
    simp only [Streams.step] at h
    split at h <;> cases h
    refine ⟨c, [], ?_, rfl⟩
    simp only [Streams.put]
    rw [if_neg (by rintro rfl; exact h1 rfl)]
    exact lose _ (by rintro rfl; exact h2 rfl)
  | read s op =>
    simp only [Streams.step] at h
    split at h
    · cases h
    · rename_i x hs
      split at h
      · cases h
      · obtain ⟨⟨a', c'⟩, h3, h4⟩ := Res.bind_eq_ok.1 h
        cases h4
        by_cases e : s = t
        · subst e
          rw [ht] at hs
          cases hs
          exact ⟨c', [a'], by simp [Streams.put], by simp [callsOf, askAll, h3]⟩
        · exact ⟨c, [], by simp only [Streams.put]; rw [if_neg (by rintro rfl; exact e rfl), ht], by simp [callsOf, e, askAll]⟩

theorem askAll_append (bits : Nat) (l l' : List StreamOp) : ∀ (c c' c'' : CharStream) (as as' : List StreamAns), askAll bits l c = .ok (as, c') →
    askAll bits l' c' = .ok (as', c'') → askAll bits (l ++ l') c = .ok (as ++ as', c'') := by
  induction l with
  | nil => intro c c' c'' as as' h h'; cases h; exact h'
  | cons op l ih =>
    intro c c' c'' as as' h h'
    rw [askAll] at h
    obtain ⟨⟨a, c1⟩, h1, h2⟩ := Res.bind_eq_ok.1 h
    obtain ⟨⟨as1, c2⟩, h3, h4⟩ := Res.bind_eq_ok.1 h2
    cases h4
    rw [List.cons_append, askAll, h1, Res.bind_ok]
    simp only [ih _ _ _ _ _ h3 h', Res.bind_ok, List.cons_append]

theorem callsOf_cons (s : Nat) (op : StreamMem.Op) (ops : List StreamMem.Op) : callsOf s (op :: ops) = callsOf s [op] ++ callsOf s ops := by
  cases op with
  | read s' op => by_cases h : s' = s <;> simp [callsOf, h]
  | _ => rfl

theorem values_run (bits : Nat) {t : Nat} {k : Keeper} (ops : List StreamMem.Op) : ∀ {v v' : Streams} {as : List StreamAns} {c : CharStream},
    v.run bits ops = .ok (as, v') → v.stream t = some ⟨c, some k⟩ → (∀ op ∈ ops, ¬ Ends t op) → (∀ op ∈ ops, ¬ Releases k op) →
    ∃ c' as', v'.stream t = some ⟨c', some k⟩ ∧ askAll bits (callsOf t ops) c = .ok (as', c') := by
  induction ops with
  | nil => intro v v' as c h ht _ _; cases h; exact ⟨c, [], ht, rfl⟩
  | cons op ops ih =>
    intro v v' as c h ht h1 h2
    rw [Streams.run] at h
    obtain ⟨⟨a, v1⟩, h3, h4⟩ := Res.bind_eq_ok.1 h
    obtain ⟨⟨as1, v2⟩, h5, h6⟩ := Res.bind_eq_ok.1 h4
    cases h6
    obtain ⟨c1, as', h7, h8⟩ := values_step bits op h3 ht (h1 _ (by simp)) (h2 _ (by simp))
    obtain ⟨c2, as'', h9, h10⟩ := ih h5 h7 (fun o ho => h1 o (by simp [ho])) (fun o ho => h2 o (by simp [ho]))
    exact ⟨c2, _, h9, by rw [callsOf_cons]; exact askAll_append bits _ _ _ _ _ _ _ h8 h10⟩

theorem gone_step (bits : Nat) {v v' : Streams} {a : Option StreamAns} {t : Nat} {c : CharStream} (op : StreamMem.Op)
    (h : v.step bits op = .ok (a, v')) (ht : v.stream t = some ⟨c, none⟩) (h1 : ¬ Ends t op) : v'.stream t = some ⟨c, none⟩ := by
  have lose : ∀ k', (v.lose k').stream t = some ⟨c, none⟩ := by
    intro k'
    simp [Streams.lose, ht]
  cases op with
  | buffer b text =>
    simp only [Streams.step] at h
    split at h <;> cases h
    exact ht
  | free b =>
    simp only [Streams.step] at h
    split at h <;> cases h
    exact lose _
  | fromBuffer s b delims =>
    simp only [Streams.step] at h
    split at h <;> cases h
    rename_i hs _
    simp only [Streams.put]
    rw [if_neg (by rintro rfl; rw [hs] at ht; cases ht), ht]
  | fromString s text delims =>
    simp only [Streams.step] at h
    split at h <;> cases h
    rename_i hs
    simp only [Streams.put]
    rw [if_neg (by rintro rfl; rw [hs] at ht; cases ht), ht]
  | copy s u =>
    simp only [Streams.step] at h
    split at h <;> cases h
    rename_i hs _
    simp only [Streams.put]
    rw [if_neg (by rintro rfl; rw [hs] at ht; cases ht), ht]
  | assign s u =>
    simp only [Streams.step] at h
    split at h
    · split at h <;> cases h
      · exact ht
      · simp only [Streams.put]
        rw [if_neg (by rintro rfl; exact h1 rfl)]
        exact lose _
    · cases h
  | destroy s =>
    simp only [Streams.step] at h
    split at h <;> cases h
    simp only [Streams.put]
    rw [if_neg (by rintro rfl; exact h1 rfl)]
    exact lose _
  | read s op =>
    simp only [Streams.step] at h
    split at h
    · cases h
    · rename_i x hs
      split at h
      · cases h
      · rename_i hk
        obtain ⟨⟨a', c'⟩, h3, h4⟩ := Res.bind_eq_ok.1 h
        cases h4
        simp only [Streams.put]
        rw [if_neg, ht]
        rintro rfl
        rw [ht] at hs
        cases hs
        cases hk

theorem gone_run (bits : Nat) {t : Nat} (ops : List StreamMem.Op) : ∀ {v v' : Streams} {as : List StreamAns} {c : CharStream},
    v.run bits ops = .ok (as, v') → v.stream t = some ⟨c, none⟩ → (∀ op ∈ ops, ¬ Ends t op) → v'.stream t = some ⟨c, none⟩ := by
  induction ops with
  | nil => intro v v' as c h ht _; cases h; exact ht
  | cons op ops ih =>
    intro v v' as c h ht h1
    rw [Streams.run] at h
    obtain ⟨⟨a, v1⟩, h3, h4⟩ := Res.bind_eq_ok.1 h
    obtain ⟨⟨as1, v2⟩, h5, h6⟩ := Res.bind_eq_ok.1 h4
    cases h6
    exact ih h5 (gone_step bits op h3 ht (h1 _ (by simp))) (fun o ho => h1 o (by simp [ho]))

theorem values_append (bits : Nat) (l l' : List StreamMem.Op) : ∀ {v v'' : Streams} {as : List StreamAns}, v.run bits (l ++ l') = .ok (as, v'') →
    ∃ v' as1 as2, v.run bits l = .ok (as1, v') ∧ v'.run bits l' = .ok (as2, v'') := by
  induction l with
  | nil => intro v v'' as h; exact ⟨v, [], as, rfl, h⟩
  | cons op l ih =>
    intro v v'' as h
    rw [List.cons_append, Streams.run] at h
    obtain ⟨⟨a, v1⟩, h3, h4⟩ := Res.bind_eq_ok.1 h
    obtain ⟨⟨as1, v2⟩, h5, h6⟩ := Res.bind_eq_ok.1 h4
    cases h6
    obtain ⟨v', bs1, bs2, h7, h8⟩ := ih h5
    exact ⟨v', a.toList ++ bs1, bs2, by rw [Streams.run, h3, Res.bind_ok]; simp only [h7, Res.bind_ok], h8⟩

/-- A defined program in memory is a defined program on values, and the memory shows them. -/
theorem run_shows (bits : Nat) {ops : List StreamMem.Op} {as : List StreamAns} {m : StreamMem} (h : StreamMem.empty.run bits ops = .ok (as, m)) :
    ∃ v, Streams.empty.run bits ops = .ok (as, v) ∧ Shows m v := by
  have h1 := Shows.empty.run bits ops
  rw [h] at h1
  cases h2 : Streams.empty.run bits ops with
  | ok r => rw [h2] at h1; obtain ⟨as', v⟩ := r; exact ⟨v, by rw [show as = as' from h1.1], h1.2⟩
  | _ => rw [h2] at h1; exact h1.elim

/-- What the next call of a stream does. -/
theorem next_call (bits : Nat) {m : StreamMem} {v : Streams} (h : Shows m v) {t : Nat} {c : CharStream} {k : Keeper} (ht : v.stream t = some ⟨c, some k⟩)
    (op : StreamOp) : Agree (fun p q => p.1 = some q.1) (m.step bits (.read t op)) (op.ask bits c) := by
  have h1 := h.step bits (.read t op)
  have h2 : v.step bits (.read t op) = (do let (a, c') ← op.ask bits c; .ok (some a, v.put t (some ⟨c', some k⟩))) := by
    simp only [Streams.step, ht]
  rw [h2] at h1
  cases h3 : op.ask bits c <;> cases h4 : m.step bits (.read t op) <;> rw [h3, h4] at h1 <;> try exact h1
  exact h1.1

/-- C139. A stream made from a string can be read for as long as it is not assigned or destroyed, whatever happens to other streams, copies of it and
buffers: each call returns what it returns when the calls of this stream are made on their own. -/
theorem C139_own (bits : Nat) (pre ops : List StreamMem.Op) (s : Nat) (text delims : Str) (as : List StreamAns) (m : StreamMem)
    (h : StreamMem.empty.run bits (pre ++ .fromString s text delims :: ops) = .ok (as, m)) (hs : ∀ op ∈ ops, ¬ Ends s op) :
    ∃ c as', askAll bits (callsOf s ops) (.ofString text delims) = .ok (as', c) ∧
      ∀ op : StreamOp, Agree (fun p q => p.1 = some q.1) (m.step bits (.read s op)) (op.ask bits c) := by
  obtain ⟨v, h1, h2⟩ := run_shows bits h
  obtain ⟨v1, _, _, -, h4⟩ := values_append bits _ _ h1
  rw [Streams.run] at h4
  obtain ⟨⟨a, v2⟩, h5, h6⟩ := Res.bind_eq_ok.1 h4
  obtain ⟨⟨as1, v3⟩, h7, h8⟩ := Res.bind_eq_ok.1 h6
  cases h8
  have h9 : v2.stream s = some ⟨.ofString text delims, some (.stream s)⟩ := by
    simp only [Streams.step] at h5
    split at h5 <;> cases h5
    simp [Streams.put]
  obtain ⟨c, as', h10, h11⟩ := values_run bits ops h7 h9 hs hs
  exact ⟨c, as', h11, next_call bits h2 h10⟩

theorem buffer_step (bits : Nat) {v v' : Streams} {a : Option StreamAns} {b : Nat} {text : Str} (op : StreamMem.Op)
    (h : v.step bits op = .ok (a, v')) (hb : v.buffer b = some text) (h1 : op ≠ .free b) : v'.buffer b = some text := by
  cases op with
  | buffer b' text' =>
    simp only [Streams.step] at h
    split at h <;> cases h
    rename_i hb'
    dsimp only
    rw [if_neg (by rintro rfl; rw [hb'] at hb; cases hb), hb]
  | free b' =>
    simp only [Streams.step] at h
    split at h <;> cases h
    dsimp only
    rw [if_neg (by rintro rfl; exact h1 rfl)]
    exact hb
  | assign s u =>
    simp only [Streams.step] at h
    split at h
    · split at h <;> cases h <;> exact hb
    · cases h
  | read s op =>
    simp only [Streams.step] at h
    split at h
    · cases h
    · split at h
      · cases h
      · obtain ⟨⟨a', c'⟩, h3, h4⟩ := Res.bind_eq_ok.1 h
        cases h4
        exact hb
  | _ =>
    simp only [Streams.step] at h
    split at h <;> cases h
    exact hb

theorem buffer_run (bits : Nat) {b : Nat} {text : Str} (ops : List StreamMem.Op) : ∀ {v v' : Streams} {as : List StreamAns},
    v.run bits ops = .ok (as, v') → v.buffer b = some text → (∀ op ∈ ops, op ≠ .free b) → v'.buffer b = some text := by
  induction ops with
  | nil => intro v v' as h ht _; cases h; exact ht
  | cons op ops ih =>
    intro v v' as h ht h1
    rw [Streams.run] at h
    obtain ⟨⟨a, v1⟩, h3, h4⟩ := Res.bind_eq_ok.1 h
    obtain ⟨⟨as1, v2⟩, h5, h6⟩ := Res.bind_eq_ok.1 h4
    cases h6
    exact ih h5 (buffer_step bits op h3 ht (h1 _ (by simp))) (fun o ho => h1 o (by simp [ho]))

/-- C139. A stream on a buffer of the caller can be read until that is freed. -/
theorem C139_borrowed (bits : Nat) (pre mid ops : List StreamMem.Op) (s b : Nat) (text delims : Str) (as : List StreamAns) (m : StreamMem)
    (h : StreamMem.empty.run bits (pre ++ .buffer b text :: (mid ++ .fromBuffer s b delims :: ops)) = .ok (as, m)) (hs : ∀ op ∈ ops, ¬ Ends s op)
    (hb : ∀ op ∈ mid ++ ops, op ≠ .free b) :
    ∃ c as', askAll bits (callsOf s ops) (.ofCStr text delims) = .ok (as', c) ∧
      ∀ op : StreamOp, Agree (fun p q => p.1 = some q.1) (m.step bits (.read s op)) (op.ask bits c) := by
  obtain ⟨v, h1, h2⟩ := run_shows bits h
  obtain ⟨v1, _, _, -, h4⟩ := values_append bits _ _ h1
  rw [Streams.run] at h4
  obtain ⟨⟨a, v2⟩, h5, h6⟩ := Res.bind_eq_ok.1 h4
  obtain ⟨⟨as1, v3⟩, h7, h8⟩ := Res.bind_eq_ok.1 h6
  cases h8
  have h9 : v2.buffer b = some text := by
    simp only [Streams.step] at h5
    split at h5 <;> cases h5
    simp
  obtain ⟨v4, _, _, h10, h11⟩ := values_append bits _ _ h7
  have h12 := buffer_run bits mid h10 h9 (fun o ho => hb o (by simp [ho]))
  rw [Streams.run] at h11
  obtain ⟨⟨a', v5⟩, h14, h15⟩ := Res.bind_eq_ok.1 h11
  obtain ⟨⟨as2, v6⟩, h16, h17⟩ := Res.bind_eq_ok.1 h15
  cases h17
  have h18 : v5.stream s = some ⟨.ofCStr text delims, some (.buffer b)⟩ := by
    simp only [Streams.step, h12] at h14
    split at h14
    · rename_i x h20 h21
      cases h21
      cases h14
      simp [Streams.put]
    · cases h14
  obtain ⟨c, as', h19, h20⟩ := values_run bits ops h16 h18 hs (by
    intro op ho hr
    cases op with
    | free b' => exact hb (.free b') (by simp [ho]) (by rw [show b' = b from hr])
    | _ => exact hr)
  exact ⟨c, as', h20, next_call bits h2 h19⟩

/-- C139. A copy of such a stream starts where the stream is, and the two move independently, until one of them is assigned or destroyed. -/
theorem C139_copy (bits : Nat) (pre ops ops' : List StreamMem.Op) (s t : Nat) (text delims : Str) (as : List StreamAns) (m : StreamMem)
    (h : StreamMem.empty.run bits (pre ++ .fromString s text delims :: (ops ++ .copy t s :: ops')) = .ok (as, m)) (hs : ∀ op ∈ ops ++ ops', ¬ Ends s op)
    (ht : ∀ op ∈ ops', ¬ Ends t op) :
    ∃ c as', askAll bits (callsOf s ops ++ callsOf t ops') (.ofString text delims) = .ok (as', c) ∧
      ∀ op : StreamOp, Agree (fun p q => p.1 = some q.1) (m.step bits (.read t op)) (op.ask bits c) := by
  obtain ⟨v, h1, h2⟩ := run_shows bits h
  obtain ⟨v1, _, _, -, h4⟩ := values_append bits _ _ h1
  rw [Streams.run] at h4
  obtain ⟨⟨a, v2⟩, h5, h6⟩ := Res.bind_eq_ok.1 h4
  obtain ⟨⟨as1, v3⟩, h7, h8⟩ := Res.bind_eq_ok.1 h6
  cases h8
  have h9 : v2.stream s = some ⟨.ofString text delims, some (.stream s)⟩ := by
    simp only [Streams.step] at h5
    split at h5 <;> cases h5
    simp [Streams.put]
  obtain ⟨v4, _, _, h10, h11⟩ := values_append bits _ _ h7
  obtain ⟨c, as', h12, h13⟩ := values_run bits ops h10 h9 (fun o ho => hs o (by simp [ho])) (fun o ho => hs o (by simp [ho]))
  rw [Streams.run] at h11
  obtain ⟨⟨a', v5⟩, h14, h15⟩ := Res.bind_eq_ok.1 h11
  obtain ⟨⟨as2, v6⟩, h16, h17⟩ := Res.bind_eq_ok.1 h15
  cases h17
  have h18 : v5.stream t = some ⟨c, some (.stream s)⟩ := by
    simp only [Streams.step, h12] at h14
    split at h14
    · rename_i x h20 h21
      cases h21
      cases h14
      simp [Streams.put]
    · cases h14
  obtain ⟨c', as'', h19, h20⟩ := values_run bits ops' h16 h18 ht (fun o ho => hs o (by simp [ho]))
  exact ⟨c', _, askAll_append bits _ _ _ _ _ _ _ h13 h20, next_call bits h2 h19⟩

/-- No call of a stream whose text is gone is defined. -/
theorem gone_call (bits : Nat) {v : Streams} {t : Nat} {c : CharStream} (ht : v.stream t = some ⟨c, none⟩) (ops : List StreamMem.Op)
    (hops : ∀ o ∈ ops, ¬ Ends t o) (op : StreamOp) (r : List StreamAns × Streams) : v.run bits (ops ++ [.read t op]) ≠ .ok r := by
  intro h
  obtain ⟨as, v'⟩ := r
  obtain ⟨v1, _, _, h1, h2⟩ := values_append bits _ _ h
  have h3 := gone_run bits ops h1 ht hops
  rw [Streams.run] at h2
  obtain ⟨⟨a, v2⟩, h5, -⟩ := Res.bind_eq_ok.1 h2
  simp [Streams.step, h3] at h5

/-- Some steps, after which the text is gone, and others. -/
theorem gone_program (bits : Nat) (pre three ops : List StreamMem.Op) (t : Nat) (op : StreamOp) (hops : ∀ o ∈ ops, ¬ Ends t o)
    (h3 : ∀ (v v' : Streams) as, v.run bits three = .ok (as, v') → ∃ c, v'.stream t = some ⟨c, none⟩) (r : List StreamAns × StreamMem) :
    StreamMem.empty.run bits (pre ++ three ++ ops ++ [.read t op]) ≠ .ok r := by
  intro h
  obtain ⟨as, m⟩ := r
  obtain ⟨v, h1, -⟩ := run_shows bits h
  rw [List.append_assoc, List.append_assoc] at h1
  obtain ⟨v1, _, _, -, h4⟩ := values_append bits _ _ h1
  obtain ⟨v2, _, _, h5, h6⟩ := values_append bits _ _ h4
  obtain ⟨c, h7⟩ := h3 _ _ _ h5
  exact gone_call bits h7 ops hops op _ h6

/-- C139 fails for a copy that lives longer than the stream it is a copy of: no call of it is defined until it is assigned. `load_char_stream` returns such a copy,
if the compiler does not elide it: the library is built as C++14, which allows both. -/
theorem C139_copy_refuted (bits : Nat) (pre ops : List StreamMem.Op) (s t : Nat) (text delims : Str) (op : StreamOp) (hne : t ≠ s)
    (hops : ∀ o ∈ ops, ¬ Ends t o) (r : List StreamAns × StreamMem) :
    StreamMem.empty.run bits (pre ++ [.fromString s text delims, .copy t s, .destroy s] ++ ops ++ [.read t op]) ≠ .ok r := by
  refine gone_program bits pre _ ops t op hops ?_ r
  intro v v' as h
  rw [Streams.run] at h
  obtain ⟨⟨a, v1⟩, h1, h2⟩ := Res.bind_eq_ok.1 h
  obtain ⟨⟨as1, w1⟩, h3, h4⟩ := Res.bind_eq_ok.1 h2
  cases h4
  rw [Streams.run] at h3
  obtain ⟨⟨a2, v2⟩, h5, h6⟩ := Res.bind_eq_ok.1 h3
  obtain ⟨⟨as2, w2⟩, h7, h8⟩ := Res.bind_eq_ok.1 h6
  cases h8
  rw [Streams.run] at h7
  obtain ⟨⟨a3, v3⟩, h9, h10⟩ := Res.bind_eq_ok.1 h7
  obtain ⟨⟨as3, w3⟩, h11, h12⟩ := Res.bind_eq_ok.1 h10
  cases h12
  cases h11
  simp only [Streams.step] at h1
  split at h1 <;> cases h1
  simp only [Streams.step] at h5
  split at h5
  · rename_i x e1 e2
    cases h5
    simp only [Streams.put] at e1 e2
    rw [if_pos trivial] at e2
    cases e2
    simp only [Streams.step] at h9
    split at h9 <;> cases h9
    refine ⟨.ofString text delims, ?_⟩
    simp [Streams.put, Streams.lose, hne]
  · cases h5

/-- C139 fails for assigning a stream that has just been made from a string, `s = char_stream( text )`: no call of `s` is defined until it is assigned again. -/
theorem C139_assign_refuted (bits : Nat) (pre ops : List StreamMem.Op) (s t : Nat) (text delims : Str) (op : StreamOp) (hne : s ≠ t)
    (hops : ∀ o ∈ ops, ¬ Ends s o) (r : List StreamAns × StreamMem) :
    StreamMem.empty.run bits (pre ++ [.fromString t text delims, .assign s t, .destroy t] ++ ops ++ [.read s op]) ≠ .ok r := by
  refine gone_program bits pre _ ops s op hops ?_ r
  intro v v' as h
  rw [Streams.run] at h
  obtain ⟨⟨a, v1⟩, h1, h2⟩ := Res.bind_eq_ok.1 h
  obtain ⟨⟨as1, w1⟩, h3, h4⟩ := Res.bind_eq_ok.1 h2
  cases h4
  rw [Streams.run] at h3
  obtain ⟨⟨a2, v2⟩, h5, h6⟩ := Res.bind_eq_ok.1 h3
  obtain ⟨⟨as2, w2⟩, h7, h8⟩ := Res.bind_eq_ok.1 h6
  cases h8
  rw [Streams.run] at h7
  obtain ⟨⟨a3, v3⟩, h9, h10⟩ := Res.bind_eq_ok.1 h7
  obtain ⟨⟨as3, w3⟩, h11, h12⟩ := Res.bind_eq_ok.1 h10
  cases h12
  cases h11
  simp only [Streams.step] at h1
  split at h1 <;> cases h1
  simp only [Streams.step] at h5
  split at h5
  · rw [if_neg hne] at h5
    cases h5
    simp only [Streams.step] at h9
    split at h9 <;> cases h9
    refine ⟨.ofString text delims, ?_⟩
    simp [Streams.put, Streams.lose, hne, Ne.symm hne]
  · cases h5

/-- C139. The text of a stream that is assigned is gone for its copies: they cannot be read until they are assigned. -/
theorem C139_reuse_refuted (bits : Nat) (pre ops : List StreamMem.Op) (s t u : Nat) (text delims : Str) (op : StreamOp) (hne : t ≠ s) (hu : u ≠ s)
    (hops : ∀ o ∈ ops, ¬ Ends t o) (r : List StreamAns × StreamMem) :
    StreamMem.empty.run bits (pre ++ [.fromString s text delims, .copy t s, .assign s u] ++ ops ++ [.read t op]) ≠ .ok r := by
  refine gone_program bits pre _ ops t op hops ?_ r
  intro v v' as h
  rw [Streams.run] at h
  obtain ⟨⟨a, v1⟩, h1, h2⟩ := Res.bind_eq_ok.1 h
  obtain ⟨⟨as1, w1⟩, h3, h4⟩ := Res.bind_eq_ok.1 h2
  cases h4
  rw [Streams.run] at h3
  obtain ⟨⟨a2, v2⟩, h5, h6⟩ := Res.bind_eq_ok.1 h3
  obtain ⟨⟨as2, w2⟩, h7, h8⟩ := Res.bind_eq_ok.1 h6
  cases h8
  rw [Streams.run] at h7
  obtain ⟨⟨a3, v3⟩, h9, h10⟩ := Res.bind_eq_ok.1 h7
  obtain ⟨⟨as3, w3⟩, h11, h12⟩ := Res.bind_eq_ok.1 h10
  cases h12
  cases h11
  simp only [Streams.step] at h1
  split at h1 <;> cases h1
  simp only [Streams.step] at h5
  split at h5
  · rename_i x e1 e2
    cases h5
    simp only [Streams.put] at e1 e2
    rw [if_pos trivial] at e2
    cases e2
    simp only [Streams.step] at h9
    split at h9
    · rw [if_neg (Ne.symm hu)] at h9
      cases h9
      refine ⟨.ofString text delims, ?_⟩
      simp [Streams.put, Streams.lose, hne]
    · cases h9
  · cases h5

/-- A stream and a copy of it are read in turn; another one is destroyed in between. -/
example : (do
    let r ← StreamMem.empty.run 64 [.fromString 0 b!"ab 12 x" b!" ", .read 0 (.token [] [34]), .copy 1 0, .fromString 2 b!"q" [], .read 1 .long, .destroy 2,
    .read 0 (.token [] [34]), .read 1 .peekc]
    .ok r.1) = .ok [.text b!"ab", .num 12, .text b!"12", .char 120] := by decide +kernel

/-- The copy of a stream that is gone. -/
example : (do
    let r ← StreamMem.empty.run 64 [.fromString 0 b!"ab 12 x" b!" ", .copy 1 0, .destroy 0]
    .ok r.1) = .ok [] ∧
    (do
    let r ← StreamMem.empty.run 64 [.fromString 0 b!"ab 12 x" b!" ", .copy 1 0, .destroy 0, .read 1 .peekc]
    .ok r.1) = .ub := by
  constructor <;> decide +kernel

/-- A stream that is assigned and then reads a buffer of the caller, up to the zero. -/
example : (do
    let r ← StreamMem.empty.run 64 [.buffer 7 (b!"one" ++ 0 :: b!"two"), .fromBuffer 0 7 b!" ", .fromString 1 b!"x" [], .assign 1 0, .destroy 0, .read 1 .line, .destroy 1, .free 7]
    .ok r.1) = .ok [.text b!"one"] := by decide +kernel

/-- A buffer that has been freed. -/
example : (do
    let r ← StreamMem.empty.run 64 [.buffer 7 b!"one", .fromBuffer 0 7 b!" ", .free 7, .read 0 .line]
    .ok r.1) = .ub := by decide +kernel

end Flut
