import Verif.Proofs.Threads

/-! # Property theorems: property trees and several threads (C127) -/

namespace Flut.Threads

/-! ## What calls access -/

/-- Values and keys. -/
def contents : Field → Prop
  | .content _ => True
  | _ => False

/-- The flags at and below a node. -/
def flagsIn (r : List Nat) : Field → Prop
  | .flag p => r <+: p
  | _ => False

/-- Nothing. -/
def nowhere : Field → Prop := fun _ => False

theorem stays_content {W : Field → Prop} (p : List Nat) : (contentP p).Stays contents W :=
  ⟨Or.inl trivial, fun v => by cases v <;> trivial⟩

theorem stays_access {r p : List Nat} (h : r <+: p) : (accessP p).Stays contents (flagsIn r) := ⟨h, trivial⟩

theorem stays_find {r p : List Nat} (h : r <+: p) (key : Str) : (findP p key).Stays contents (flagsIn r) :=
  uses_bind' _ _ (stays_access h) fun _ => uses_andThen _ _ (stays_content p) fun _ => trivial

theorem stays_flag {r p : List Nat} (h : r <+: p) : (flagP p).Stays contents (flagsIn r) :=
  ⟨Or.inr h, fun v => by cases v <;> trivial⟩

theorem below {r p : List Nat} (h : r <+: p) (i : Nat) : r <+: p ++ [i] := h.trans (List.prefix_append _ _)

theorem stays_getValue {r p : List Nat} (h : r <+: p) : (getValueP p).Stays contents (flagsIn r) :=
  uses_bind' _ _ (stays_access h) fun _ => uses_andThen _ _ (stays_content p) fun _ => trivial

theorem stays_get {r p : List Nat} (h : r <+: p) : (getP p).Stays contents (flagsIn r) :=
  uses_bind' _ _ (stays_access h) fun _ => stays_getValue h

theorem stays_getAll {r p : List Nat} (h : r <+: p) (n i : Nat) : (getAllP p n i).Stays contents (flagsIn r) := by
  induction n generalizing i with
  | zero => trivial
  | succ n ih => exact uses_andThen _ _ (stays_get (below h i)) fun _ => uses_andThen _ _ (ih _) fun _ => trivial

theorem stays_copyAll {W : Field → Prop} (d : Nat) (hd : ∀ p, (copyP d p).Stays contents W) (p : List Nat) (ks : List Str) (i : Nat) :
    (copyAllP d p ks i).Stays contents W := by
  induction ks generalizing i with
  | nil => simp only [copyAllP]; trivial
  | cons k ks ih =>
    simp only [copyAllP]
    exact uses_andThen _ _ (hd _) fun _ => uses_andThen _ _ (ih _) fun _ => trivial

theorem stays_copy {W : Field → Prop} (d : Nat) (p : List Nat) : (copyP d p).Stays contents W := by
  induction d generalizing p with
  | zero => simp only [copyP]; trivial
  | succ d ih =>
    simp only [copyP]
    exact uses_andThen _ _ (stays_content p) fun _ => uses_andThen _ _ (stays_copyAll d ih _ _ _) fun _ => trivial

theorem stays_countAll {r : List Nat} (d : Nat) (hd : ∀ p, r <+: p → (countP d p).Stays contents (flagsIn r)) (p : List Nat) (h : r <+: p)
    (ks : List Str) (i : Nat) : (countAllP d p ks i).Stays contents (flagsIn r) := by
  induction ks generalizing i with
  | nil => simp only [countAllP]; trivial
  | cons k ks ih =>
    simp only [countAllP]
    exact uses_andThen _ _ (hd _ (below h i)) fun _ => uses_andThen _ _ (ih _) fun _ => trivial

theorem stays_count {r : List Nat} (d : Nat) (p : List Nat) (h : r <+: p) : (countP d p).Stays contents (flagsIn r) := by
  induction d generalizing p with
  | zero => simp only [countP]; trivial
  | succ d ih =>
    simp only [countP]
    exact uses_andThen _ _ (stays_flag h) fun _ => uses_andThen _ _ (stays_content p) fun _ =>
      uses_andThen _ _ (stays_countAll d ih p h _ _) fun _ => trivial

theorem stays_quiet {W : Field → Prop} (c : Call) (h : c.quiet = true) : c.run.Stays contents W := by
  cases c <;> simp only [Call.quiet, Bool.false_eq_true] at h
  · exact uses_andThen _ _ (stays_content _) fun _ => trivial
  · exact uses_andThen _ _ (stays_content _) fun _ => trivial
  · exact uses_andThen _ _ (stays_content _) fun _ => trivial
  · exact uses_andThen _ _ (stays_copy _ _) fun _ => trivial

theorem stays_call {r : List Nat} (c : Call) (h : r <+: c.node) : c.run.Stays contents (flagsIn r) := by
  cases c with
  | hasValue p => exact stays_quiet _ rfl
  | size p => exact stays_quiet _ rfl
  | empty p => exact stays_quiet _ rfl
  | copy d p => exact stays_quiet _ rfl
  | isAccessed p => exact uses_andThen _ _ (stays_flag h) fun _ => trivial
  | countUnaccessed d p => exact uses_andThen _ _ (stays_count d p h) fun _ => trivial
  | getValue p => exact uses_andThen _ _ (stays_getValue h) fun _ => trivial
  | get p => exact uses_andThen _ _ (stays_get h) fun _ => trivial
  | getAll p =>
    exact uses_bind' _ _ (stays_access h) fun _ => uses_bind' _ _ (stays_access h) fun _ => uses_andThen _ _ (stays_content p) fun _ =>
      uses_andThen _ _ (stays_getAll h _ _) fun _ => trivial
  | hasKey p key => exact uses_andThen _ _ (stays_find h key) fun _ => trivial
  | hasValueAt p key =>
    refine uses_andThen _ _ (stays_find h key) fun a => ?_
    cases a with
    | none => trivial
    | some i => exact uses_andThen _ _ (stays_content _) fun _ => trivial
  | getChild p key =>
    refine uses_andThen _ _ (stays_find h key) fun a => ?_
    cases a with
    | none => trivial
    | some i => exact uses_bind' _ _ (stays_access h) fun _ => trivial
  | getChildAt p i =>
    refine uses_andThen _ _ (stays_content p) fun a => ?_
    split
    · exact uses_bind' _ _ (stays_access h) fun _ => trivial
    · trivial
  | getKey p i =>
    refine uses_andThen _ _ (stays_content p) fun a => ?_
    split
    · trivial
    · exact uses_bind' _ _ (stays_access h) fun _ => trivial
  | getKeyed p key =>
    refine uses_andThen _ _ (stays_find h key) fun a => ?_
    cases a with
    | none => trivial
    | some i => exact uses_bind' _ _ (stays_access h) fun _ => uses_andThen _ _ (stays_get (below h i)) fun _ => trivial
  | getDef p key dflt =>
    refine uses_andThen _ _ (stays_find h key) fun a => ?_
    cases a with
    | none => trivial
    | some i => exact uses_andThen _ _ (stays_get (below h i)) fun _ => trivial
  | tryGetChild p key =>
    refine uses_bind' _ _ (stays_access h) fun _ => uses_andThen _ _ (stays_find h key) fun a => ?_
    cases a with
    | none => trivial
    | some i => exact uses_bind' _ _ (stays_access (below h i)) fun _ => trivial

private theorem gives_ok {α : Type} {r : List Nat} (x : P (Res α)) (f : α → P (Res Ans)) (hf : ∀ a, (f a).Gives (AnsIn r)) :
    (x.andThen f).Gives (AnsIn r) := gives_andThen x f (fun _ => trivial) trivial trivial hf

theorem gives_call {r : List Nat} (c : Call) (h : c.quiet = true ∨ r <+: c.node) : c.run.Gives (AnsIn r) := by
  cases c with
  | hasValue p => exact gives_ok _ _ fun _ => trivial
  | size p => exact gives_ok _ _ fun _ => trivial
  | empty p => exact gives_ok _ _ fun _ => trivial
  | copy d p => exact gives_ok _ _ fun _ => trivial
  | isAccessed p => exact gives_ok _ _ fun _ => trivial
  | countUnaccessed d p => exact gives_ok _ _ fun _ => trivial
  | getValue p => exact gives_ok _ _ fun _ => trivial
  | get p => exact gives_ok _ _ fun _ => trivial
  | getAll p => exact gives_ok _ _ fun _ => gives_ok _ _ fun _ => trivial
  | hasKey p key => exact gives_ok _ _ fun _ => trivial
  | hasValueAt p key =>
    refine gives_ok _ _ fun a => ?_
    cases a with
    | none => trivial
    | some i => exact gives_ok _ _ fun _ => trivial
  | getChild p key =>
    have h : r <+: p := h.resolve_left (by simp [Call.quiet])
    refine gives_ok _ _ fun a => ?_
    cases a with
    | none => trivial
    | some i => exact below h i
  | getChildAt p i =>
    have h : r <+: p := h.resolve_left (by simp [Call.quiet])
    refine gives_ok _ _ fun a => ?_
    split
    · exact below h i
    · trivial
  | getKey p i =>
    refine gives_ok _ _ fun a => ?_
    split <;> trivial
  | getKeyed p key =>
    refine gives_ok _ _ fun a => ?_
    cases a with
    | none => trivial
    | some i => exact gives_ok _ _ fun _ => trivial
  | getDef p key dflt =>
    refine gives_ok _ _ fun a => ?_
    cases a with
    | none => trivial
    | some i => exact gives_ok _ _ fun _ => trivial
  | tryGetChild p key =>
    have h : r <+: p := h.resolve_left (by simp [Call.quiet])
    refine gives_ok _ _ fun a => ?_
    cases a with
    | none => trivial
    | some i => exact below h i

theorem stays_within {r : List Nat} (c : Client) (h : c.Within r) : c.prog.Stays contents (flagsIn r) := by
  induction c with
  | done => trivial
  | call c next ih =>
    refine uses_bind (Q := AnsIn r) _ _ ?_ (gives_call c h.1) fun a ha => uses_bind' _ _ (ih a (h.2 a ha)) fun _ => trivial
    rcases h.1 with q | u
    · exact stays_quiet c q
    · exact stays_call c u

theorem stays_quietClient (c : Client) (h : c.Quiet) : c.prog.Stays contents nowhere := by
  induction c with
  | done => trivial
  | call c next ih => exact uses_bind' _ _ (stays_quiet c h.1) fun a => uses_bind' _ _ (ih a (h.2 a)) fun _ => trivial

/-- What a thread may write. -/
def ownFlags : Option (List Nat) → Field → Prop
  | some r => flagsIn r
  | none => nowhere

theorem own_disjoint {r r' : Option (List Nat)} (h : Apart r r') (l : Field) (hw : ownFlags r l) : ¬ contents l ∧ ¬ ownFlags r' l := by
  cases r with
  | none => exact hw.elim
  | some r =>
    cases l with
    | content p => exact hw.elim
    | flag p =>
      refine ⟨fun h => h, fun hw' => ?_⟩
      cases r' with
      | none => exact hw'
      | some r' =>
        have h1 : r <+: p := hw
        have h2 : r' <+: p := hw'
        rcases List.prefix_or_prefix_of_prefix h1 h2 with k | k
        · exact h.1 k
        · exact h.2 k

/-! ## C127 -/

/-- Any number of threads that read one tree, each in a part of its own: whatever the schedule, there is no race, each thread gets the answers that
it would get alone, the flags of its part are as they would be, and values and keys do not change. Threads that only ask for sizes and whether there
are values, and that make copies, can do so everywhere. -/
theorem C127_apart (t : PN) (cs : List (Client × Option (List Nat))) (hw : ∀ c ∈ cs, c.1.KeepsTo c.2) (hd : cs.Pairwise fun a b => Apart a.2 b.2)
    (sched : List Nat) :
    let s := (Machine.start (memOf t) (cs.map (·.1.prog))).run sched
    ¬ Race s.log ∧ (∀ p, s.mem (.content p) = memOf t (.content p)) ∧
      (∀ p, (∀ c ∈ cs, ∀ r, c.2 = some r → ¬ r <+: p) → s.mem (.flag p) = memOf t (.flag p)) ∧
      ∀ (i : Nat) c as, cs[i]? = some c → s.threads[i]? = some (.ret as) → as = (c.1.prog.alone (memOf t)).1 ∧
        ∀ r p, c.2 = some r → r <+: p → s.mem (.flag p) = (c.1.prog.alone (memOf t)).2 (.flag p) := by
  intro s
  have symm : ∀ {a b : Option (List Nat)}, Apart a b → Apart b a := by
    intro a b h
    cases a <;> cases b <;> first | trivial | exact ⟨h.2, h.1⟩
  let own : Nat → Option (List Nat) := fun i => (cs[i]?).bind (·.2)
  have hap : ∀ i j, i ≠ j → Apart (own i) (own j) := by
    intro i j hij
    show Apart ((cs[i]?).bind (·.2)) ((cs[j]?).bind (·.2))
    cases hi : cs[i]? with
    | none => trivial
    | some a =>
      cases hj : cs[j]? with
      | none =>
        obtain ⟨_, r⟩ := a
        cases r <;> trivial
      | some b =>
        obtain ⟨hi1, hi2⟩ := List.getElem?_eq_some_iff.1 hi
        obtain ⟨hj1, hj2⟩ := List.getElem?_eq_some_iff.1 hj
        have := List.pairwise_iff_getElem.1 hd
        rcases lt_or_gt_of_ne hij with h | h
        · have := this i j hi1 hj1 h
          rw [hi2, hj2] at this
          exact this
        · have := this j i hj1 hi1 h
          rw [hi2, hj2] at this
          exact symm this
  have hdis : Split (fun _ => contents) (fun i => ownFlags (own i)) fun _ => False :=
    ⟨fun _ j l hc hw => (own_disjoint (r' := none) (by cases own j <;> trivial) l hw).1 hc, fun i j hij l hl => (own_disjoint (hap i j hij) l hl).2,
      fun _ _ h => h.elim⟩
  have hst : ∀ (i : Nat) (p : P (List (Res Ans))), (cs.map (·.1.prog))[i]? = some p → p.Stays contents (ownFlags (own i)) := by
    intro i p hp
    rw [List.getElem?_map] at hp
    cases hi : cs[i]? with
    | none => rw [hi] at hp; cases hp
    | some c =>
      rw [hi] at hp
      injection hp with hp
      subst hp
      have hk := hw c (List.mem_of_getElem? hi)
      show c.1.prog.Stays contents (ownFlags ((cs[i]?).bind (·.2)))
      rw [hi]
      show c.1.prog.Stays contents (ownFlags c.2)
      obtain ⟨c, r⟩ := c
      cases r with
      | none => exact stays_quietClient c hk
      | some r => exact stays_within c hk
  have inv : ThreadInv (fun _ => contents) (fun i => ownFlags (own i)) (fun _ => False) (memOf t) (cs.map (·.1.prog)) s := inv_run hdis _ _ (fun i p h => (hst i p h).at _) sched
  refine ⟨log_no_race hdis inv.log (fun _ _ h => h.elim), fun p => inv.rest _ (fun i _ h => ?_) id, fun p hp => inv.rest _ (fun i hi h => ?_) id, fun i c as hi hs => ?_⟩
  · cases hr : own i with
    | none => rw [hr] at h; exact h
    | some r => rw [hr] at h; exact h
  · have hi' : i < cs.length := by simpa using hi
    have e : own i = cs[i].2 := by
      show (cs[i]?).bind (·.2) = _
      rw [List.getElem?_eq_getElem hi']; rfl
    rw [e] at h
    cases hr : cs[i].2 with
    | none => rw [hr] at h; exact h
    | some r => rw [hr] at h; exact hp _ (List.getElem_mem hi') r hr h
  · have hp : (cs.map (·.1.prog))[i]? = some c.1.prog := by rw [List.getElem?_map, hi]; rfl
    obtain ⟨h1, h2⟩ := inv.same i _ _ hs hp
    refine ⟨h1, fun r p hr hrp => h2.1 (.flag p) (Or.inr ?_)⟩
    show ownFlags ((cs[i]?).bind (·.2)) _
    rw [hi]
    show ownFlags c.2 _
    rw [hr]
    exact hrp

/-- The first access of a call that marks its node. -/
theorem marks_first (c : Call) (h : c.marks = true) : ∃ k, c.run = .write (.flag c.node) (.flag true) k := by
  cases c <;> simp only [Call.marks, Bool.false_eq_true] at h <;> exact ⟨_, rfl⟩

private theorem first_access {L V α : Type} [DecidableEq L] (l : L) (i : Nat) (kd : Kind) (sched : List Nat) (hi : i ∈ sched) (s : Machine L V α)
    (h : (∃ a ∈ s.log, a.thread = i ∧ a.loc = l ∧ a.kind = kd) ∨
      ∃ x, s.threads[i]? = some x ∧ ((∃ k, x = .read l k ∧ kd = .read) ∨ ∃ v k, x = .write l v k ∧ kd = .write)) :
    ∃ a ∈ (s.run sched).log, a.thread = i ∧ a.loc = l ∧ a.kind = kd := by
  have keep : ∀ (sched : List Nat) (s : Machine L V α), (∃ a ∈ s.log, a.thread = i ∧ a.loc = l ∧ a.kind = kd) →
      ∃ a ∈ (s.run sched).log, a.thread = i ∧ a.loc = l ∧ a.kind = kd := by
    intro sched
    induction sched with
    | nil => exact fun s h => h
    | cons j js ih =>
      rintro s ⟨a, ha, hp⟩
      refine ih (s.step j) ⟨a, ?_, hp⟩
      unfold Machine.step
      split <;> first | exact List.mem_append_left _ ha | exact ha
  induction sched generalizing s with
  | nil => cases hi
  | cons j js ih =>
    rcases h with h | ⟨x, hx, hk⟩
    · exact keep _ s h
    · by_cases hj : j = i
      · subst hj
        refine keep js (s.step j) ?_
        rcases hk with ⟨k, rfl, rfl⟩ | ⟨v, k, rfl, rfl⟩
        · simp only [Machine.step, hx]
          exact ⟨_, List.mem_append_right _ (List.mem_singleton.2 rfl), rfl, rfl, rfl⟩
        · simp only [Machine.step, hx]
          exact ⟨_, List.mem_append_right _ (List.mem_singleton.2 rfl), rfl, rfl, rfl⟩
      · have hi' : i ∈ js := by
          rcases List.mem_cons.1 hi with h | h
          · exact absurd h.symm hj
          · exact h
        refine ih hi' (s.step j) (Or.inr ⟨x, ?_, hk⟩)
        unfold Machine.step
        split
        · show (s.threads.set j _)[i]? = some x
          rw [List.getElem?_set_ne hj]; exact hx
        · show (s.threads.set j _)[i]? = some x
          rw [List.getElem?_set_ne hj]; exact hx
        · show (s.threads.set j _)[i]? = some x
          rw [List.getElem?_set_ne hj]; exact hx
        · exact hx

/-- That threads may read the same node is false, although all calls are `const`: two threads that get a value from, or look for a key in, the same node race,
whatever the tree, the keys and the schedule. So does a thread that asks whether the node was accessed. -/
theorem C127_same_node_refuted (t : PN) (cs : List Client) (i j : Nat) (hij : i ≠ j) (c c' : Call) (k k' : Res Ans → Client)
    (hi : cs[i]? = some (.call c k)) (hj : cs[j]? = some (.call c' k')) (hc : c.marks = true) (hc' : c'.marks = true ∨ c' = .isAccessed c.node)
    (hn : c.node = c'.node) (sched : List Nat) (hsi : i ∈ sched) (hsj : j ∈ sched) :
    Race ((Machine.start (memOf t) (cs.map (·.prog))).run sched).log := by
  have hti : (Machine.start (memOf t) (cs.map (·.prog))).threads[i]? = some (Client.call c k).prog := by
    show (cs.map (·.prog))[i]? = _
    rw [List.getElem?_map, hi]; rfl
  have htj : (Machine.start (memOf t) (cs.map (·.prog))).threads[j]? = some (Client.call c' k').prog := by
    show (cs.map (·.prog))[j]? = _
    rw [List.getElem?_map, hj]; rfl
  obtain ⟨x, hx⟩ := marks_first c hc
  obtain ⟨a, ha, ta, la, ka⟩ := first_access (.flag c.node) i .write sched hsi _ (Or.inr ⟨_, hti, Or.inr ⟨.flag true, _, by
    simp only [Client.prog, hx, Prog.bind]; rfl, rfl⟩⟩)
  have hb : ∃ b ∈ ((Machine.start (memOf t) (cs.map (·.prog))).run sched).log, b.thread = j ∧ b.loc = .flag c.node ∧ b.kind ≠ .atomic := by
    rcases hc' with hc' | rfl
    · obtain ⟨y, hy⟩ := marks_first c' hc'
      obtain ⟨b, hb, tb, lb, kb⟩ := first_access (.flag c'.node) j .write sched hsj _ (Or.inr ⟨_, htj, Or.inr ⟨.flag true, _, by
        simp only [Client.prog, hy, Prog.bind]; rfl, rfl⟩⟩)
      exact ⟨b, hb, tb, hn ▸ lb, by rw [kb]; decide⟩
    · obtain ⟨b, hb, tb, lb, kb⟩ := first_access (.flag c.node) j .read sched hsj _ (Or.inr ⟨_, htj, Or.inl ⟨_, by
        simp only [Client.prog, Call.run, flagP, Prog.andThen, Prog.bind]; rfl, rfl⟩⟩)
      exact ⟨b, hb, tb, lb, by rw [kb]; decide⟩
  obtain ⟨b, hb, tb, lb, kb⟩ := hb
  exact ⟨a, ha, b, hb, by rw [ta, tb]; exact hij, by rw [la, lb], Or.inl (by rw [ka]; decide), fun h => kb h.2⟩

/-! ## The calls are those of the model of trees -/

/-- Memory with one flag set. -/
def marked (m : Field → Cell) (p : List Nat) : Field → Cell := fun l => if l = .flag p then .flag true else m l

theorem nodeAt_replace (t n m : PN) (p q : List Nat) (h : nodeAt t p = some n) : nodeAt (replaceAt t p m) (p ++ q) = nodeAt m q := by
  induction p generalizing t with
  | nil => rfl
  | cons i p ih =>
    obtain ⟨a, v, cs⟩ := t
    simp only [nodeAt] at h
    simp only [replaceAt, List.cons_append, nodeAt, List.getElem?_modify]
    cases hi : cs[i]? with
    | none => rw [hi] at h; cases h
    | some kn =>
      rw [hi] at h
      simp only [if_true]
      exact ih kn.2 h

theorem memOf_replace_other (t n m : PN) (p : List Nat) (h : nodeAt t p = some n) (q : List Nat) (hq : ¬ p <+: q) :
    memOf (replaceAt t p m) (.flag q) = memOf t (.flag q) ∧ memOf (replaceAt t p m) (.content q) = memOf t (.content q) := by
  induction p generalizing t q with
  | nil => exact absurd (List.nil_prefix) hq
  | cons i p ih =>
    obtain ⟨a, v, cs⟩ := t
    cases q with
    | nil =>
      refine ⟨rfl, ?_⟩
      simp only [replaceAt, memOf, nodeAt, PN.value, PN.children]
      congr 1
      clear h ih
      induction cs generalizing i with
      | nil => simp
      | cons c cs ihc =>
        cases i with
        | zero => simp
        | succ i =>
          rw [List.modify_succ_cons, List.map_cons, List.map_cons]
          congr 1
          exact ihc i (fun hh => hq (by simp at hh))
    | cons j q =>
      simp only [nodeAt] at h
      cases hi : cs[i]? with
      | none => rw [hi] at h; cases h
      | some kn =>
        rw [hi] at h
        by_cases hj : i = j
        · subst hj
          have := ih kn.2 h q (fun hh => hq (List.cons_prefix_cons.2 ⟨rfl, hh⟩))
          simp only [memOf, replaceAt, nodeAt, List.getElem?_modify, hi, if_true] at this ⊢
          exact this
        · simp only [memOf, replaceAt, nodeAt, List.getElem?_modify, hj, if_false]
          cases cs[j]? <;> exact ⟨rfl, rfl⟩

theorem nodeAt_append (t n : PN) (p q : List Nat) (h : nodeAt t p = some n) : nodeAt t (p ++ q) = nodeAt n q := by
  induction p generalizing t with
  | nil => injection h with h; rw [h]; rfl
  | cons i p ih =>
    obtain ⟨a, v, cs⟩ := t
    simp only [nodeAt, List.cons_append] at h ⊢
    cases hi : cs[i]? with
    | none => rw [hi] at h; cases h
    | some kn => rw [hi] at h; exact ih kn.2 h

/-- Memory with some flags set. -/
def markAll (m : Field → Cell) (ps : List (List Nat)) : Field → Cell
  | .flag q => if q ∈ ps then .flag true else m (.flag q)
  | .content q => m (.content q)

theorem memOf_replace (t n m : PN) (p : List Nat) (h : nodeAt t p = some n) (ps : List (List Nat)) (hm : memOf m = markAll (memOf n) ps) :
    memOf (replaceAt t p m) = markAll (memOf t) (ps.map (p ++ ·)) := by
  funext l
  cases l with
  | flag q =>
    by_cases hq : p <+: q
    · obtain ⟨r, rfl⟩ := hq
      have e1 : memOf (replaceAt t p m) (.flag (p ++ r)) = memOf m (.flag r) := by simp only [memOf, nodeAt_replace t n m p r h]
      have e2 : memOf t (.flag (p ++ r)) = memOf n (.flag r) := by simp only [memOf, nodeAt_append t n p r h]
      rw [e1, hm]
      simp only [markAll, e2, List.mem_map, List.append_cancel_left_eq, exists_eq_right]
    · rw [(memOf_replace_other t n m p h q hq).1]
      simp only [markAll]
      rw [if_neg]
      intro hh
      obtain ⟨r, _, rfl⟩ := List.mem_map.1 hh
      exact hq (List.prefix_append _ _)
  | content q =>
    by_cases hq : p <+: q
    · obtain ⟨r, rfl⟩ := hq
      have e1 : memOf (replaceAt t p m) (.content (p ++ r)) = memOf m (.content r) := by simp only [memOf, nodeAt_replace t n m p r h]
      have e2 : memOf t (.content (p ++ r)) = memOf n (.content r) := by simp only [memOf, nodeAt_append t n p r h]
      rw [e1, hm]
      simp only [markAll, e2]
    · rw [(memOf_replace_other t n m p h q hq).2]
      rfl

theorem memOf_self (t n : PN) (p : List Nat) (h : nodeAt t p = some n) : memOf (replaceAt t p n) = memOf t := by
  rw [memOf_replace t n n p h [] (by funext l; cases l <;> simp [markAll])]
  funext l; cases l <;> simp [markAll]

theorem memOf_access (n : PN) : memOf n.access = markAll (memOf n) [[]] := by
  obtain ⟨a, v, cs⟩ := n
  funext l
  cases l with
  | flag q => cases q <;> simp [markAll, memOf, nodeAt, PN.access, PN.acc]
  | content q => cases q <;> simp [markAll, memOf, nodeAt, PN.access, PN.value, PN.children]

theorem modifyAt_getElem (f : PN → PN) (i j : Nat) (cs : List (Str × PN)) :
    (PN.modifyAt f i cs)[j]? = if i = j then (cs[j]?).map fun kn => (kn.1, f kn.2) else cs[j]? := by
  induction cs generalizing i j with
  | nil => cases i <;> simp [PN.modifyAt]
  | cons c cs ih =>
    cases i with
    | zero => cases j <;> simp [PN.modifyAt]
    | succ i =>
      cases j with
      | zero => simp [PN.modifyAt]
      | succ j => simp only [PN.modifyAt, List.getElem?_cons_succ, ih, Nat.add_right_cancel_iff]

theorem modifyAt_keys (f : PN → PN) (i : Nat) (cs : List (Str × PN)) : (PN.modifyAt f i cs).map (·.1) = cs.map (·.1) := by
  induction cs generalizing i with
  | nil => cases i <;> rfl
  | cons c cs ih => cases i with
    | zero => rfl
    | succ i => simp only [PN.modifyAt, List.map_cons, ih]

theorem memOf_access_child (a : Bool) (v : Str) (cs : List (Str × PN)) (i : Nat) (kn : Str × PN) (hi : cs[i]? = some kn) :
    memOf (.mk true v (PN.modifyAt PN.access i cs)) = markAll (memOf (.mk a v cs)) [[], [i]] := by
  funext l
  have hc := memOf_access kn.2
  cases l with
  | flag q =>
    cases q with
    | nil => simp [markAll, memOf, nodeAt, PN.acc]
    | cons j q =>
      simp only [memOf, nodeAt, markAll, modifyAt_getElem]
      by_cases hj : i = j
      · subst hj
        have := congrFun hc (.flag q)
        simp only [memOf, markAll] at this
        simp only [if_true, hi, Option.map_some, this, List.mem_cons, List.not_mem_nil, or_false, List.cons.injEq, true_and, false_or, reduceCtorEq]
      · rw [if_neg hj, if_neg]
        simp; intro h; exact absurd h.symm hj
  | content q =>
    cases q with
    | nil => simp [markAll, memOf, nodeAt, PN.value, PN.children, modifyAt_keys]
    | cons j q =>
      simp only [memOf, nodeAt, markAll, modifyAt_getElem]
      by_cases hj : i = j
      · subst hj
        have := congrFun hc (.content q)
        simp only [memOf, markAll] at this
        simp only [if_true, hi, Option.map_some, this]
      · rw [if_neg hj]

theorem alone_bind {L V α β : Type} [DecidableEq L] (x : Prog L V α) (f : α → Prog L V β) (m : L → V) :
    (x.bind f).alone m = (f (x.alone m).1).alone (x.alone m).2 := by
  induction x generalizing m with
  | ret a => rfl
  | read l k ih => exact ih _ m
  | write l v k ih => exact ih _
  | modify a l g k ih => exact ih _

theorem alone_andThen {L V α β : Type} [DecidableEq L] (x : Prog L V (Res α)) (f : α → Prog L V (Res β)) (m m' : L → V) (a : α)
    (h : x.alone m = (.ok a, m')) : (x.andThen f).alone m = (f a).alone m' := by
  unfold Prog.andThen
  rw [alone_bind, h]

theorem alone_access (p : List Nat) (m : Field → Cell) : (accessP p).alone m = ((), markAll m [p]) := by
  simp only [accessP, Prog.alone]
  congr 1
  funext l
  cases l <;> simp [markAll]

theorem markAll_markAll (m : Field → Cell) (ps qs : List (List Nat)) : markAll (markAll m ps) qs = markAll m (ps ++ qs) := by
  funext l
  cases l with
  | flag q =>
    simp only [markAll, List.mem_append]
    by_cases h1 : q ∈ qs <;> by_cases h2 : q ∈ ps <;> simp [h1, h2]
  | content q => rfl

theorem markAll_congr (m : Field → Cell) (ps qs : List (List Nat)) (h : ∀ q, q ∈ ps ↔ q ∈ qs) : markAll m ps = markAll m qs := by
  funext l
  cases l <;> simp [markAll, h]

theorem alone_content (t n : PN) (p : List Nat) (h : nodeAt t p = some n) (ps : List (List Nat)) :
    (contentP p).alone (markAll (memOf t) ps) = (.ok (n.value, n.children.map (·.1)), markAll (memOf t) ps) := by
  simp only [contentP, Prog.alone, markAll, memOf, h]

theorem keyIdx_findIdx (key : Str) (cs : List (Str × PN)) : keyIdx key (cs.map (·.1)) = PN.findIdx key cs := by
  induction cs with
  | nil => rfl
  | cons c cs ih => obtain ⟨k, n⟩ := c; simp only [List.map_cons, keyIdx, PN.findIdx, ih]

theorem alone_find (t n : PN) (p : List Nat) (h : nodeAt t p = some n) (key : Str) (ps : List (List Nat)) :
    (findP p key).alone (markAll (memOf t) ps) = (.ok (PN.findIdx key n.children), markAll (memOf t) (ps ++ [p])) := by
  unfold findP
  rw [alone_bind, alone_access]
  dsimp only
  rw [markAll_markAll, alone_andThen _ _ _ _ _ (alone_content t n p h _), keyIdx_findIdx]
  rfl

theorem alone_get (t n : PN) (p : List Nat) (h : nodeAt t p = some n) (ps : List (List Nat)) :
    (getP p).alone (markAll (memOf t) ps) = (.ok n.value, markAll (memOf t) (ps ++ [p])) := by
  unfold getP getValueP
  rw [alone_bind, alone_access, alone_bind, alone_access]
  dsimp only
  rw [markAll_markAll, markAll_markAll, alone_andThen _ _ _ _ _ (alone_content t n p h _)]
  simp only [Prog.alone]
  rw [markAll_congr _ (ps ++ ([p] ++ [p])) (ps ++ [p]) (by simp)]

theorem findIdx_getElem (key : Str) (cs : List (Str × PN)) (i : Nat) (h : PN.findIdx key cs = some i) : ∃ kn, cs[i]? = some kn := by
  induction cs generalizing i with
  | nil => cases h
  | cons c cs ih =>
    obtain ⟨k, n⟩ := c
    simp only [PN.findIdx] at h
    split at h
    · injection h with h; subst h; exact ⟨_, rfl⟩
    · cases hf : PN.findIdx key cs with
      | none => rw [hf] at h; cases h
      | some j =>
        rw [hf] at h
        injection h with h
        subst h
        obtain ⟨kn, hk⟩ := ih j hf
        exact ⟨kn, by simpa using hk⟩

theorem nodeAt_child (t : PN) (a : Bool) (v : Str) (cs : List (Str × PN)) (p : List Nat) (h : nodeAt t p = some (.mk a v cs)) (i : Nat) (kn : Str × PN)
    (hi : cs[i]? = some kn) : nodeAt t (p ++ [i]) = some kn.2 := by
  rw [nodeAt_append t _ p [i] h]
  simp only [nodeAt, hi]

theorem alone_getAll (t : PN) (a : Bool) (v : Str) (cs : List (Str × PN)) (p : List Nat) (h : nodeAt t p = some (.mk a v cs)) (k : Nat) :
    ∀ i ps, i + k = cs.length → (getAllP p k i).alone (markAll (memOf t) ps) =
      (.ok ((cs.drop i).map (·.2.value)), markAll (memOf t) (ps ++ (List.range' i k).map fun j => p ++ [j])) := by
  induction k with
  | zero =>
    intro i ps hi
    have : cs.drop i = [] := List.drop_eq_nil_of_le (by omega)
    simp only [getAllP, Prog.alone, this, List.map_nil, List.range'_zero, List.append_nil]
  | succ k ih =>
    intro i ps hi
    have hlt : i < cs.length := by omega
    have hc := nodeAt_child t a v cs p h i cs[i] (List.getElem?_eq_getElem hlt)
    unfold getAllP
    rw [alone_andThen _ _ _ _ _ (alone_get t _ _ hc ps), alone_andThen _ _ _ _ _ (ih (i + 1) _ (by omega))]
    simp only [Prog.alone, List.drop_eq_getElem_cons hlt, List.map_cons, List.range'_succ, List.append_assoc, List.singleton_append]

theorem memOf_access_all (a : Bool) (v : Str) (cs : List (Str × PN)) :
    memOf (.mk true v (cs.map fun kn => (kn.1, kn.2.access))) = markAll (memOf (.mk a v cs)) ([] :: (List.range' 0 cs.length).map fun j => [j]) := by
  funext l
  cases l with
  | flag q =>
    cases q with
    | nil => simp [markAll, memOf, nodeAt, PN.acc]
    | cons j q =>
      simp only [memOf, nodeAt, markAll, List.getElem?_map]
      cases hj : cs[j]? with
      | none =>
        rw [if_neg]
        · rfl
        · have := List.getElem?_eq_none_iff.1 hj
          simp; intro x; omega
      | some kn =>
        have hlt := (List.getElem?_eq_some_iff.1 hj).1
        have := congrFun (memOf_access kn.2) (.flag q)
        simp only [memOf, markAll] at this
        simp only [Option.map_some, this]
        by_cases hq : q = []
        · rw [if_pos (by simp [hq]), if_pos]
          subst hq
          simp; exact hlt
        · rw [if_neg (by simp [hq]), if_neg]
          simp [hq]
  | content q =>
    cases q with
    | nil => simp [markAll, memOf, nodeAt, PN.value, PN.children, Function.comp_def]
    | cons j q =>
      simp only [memOf, nodeAt, markAll, List.getElem?_map]
      cases hj : cs[j]? with
      | none => rfl
      | some kn =>
        have := congrFun (memOf_access kn.2) (.content q)
        simp only [memOf, markAll] at this
        simp only [Option.map_some, this]

theorem markAll_nil (m : Field → Cell) : markAll m [] = m := by
  funext l
  cases l <;> simp [markAll]

theorem levels_le (cs : List (Str × PN)) (kn : Str × PN) (h : kn ∈ cs) : levels kn.2 ≤ levelsAll cs := by
  induction cs with
  | nil => cases h
  | cons c cs ih =>
    obtain ⟨k, n⟩ := c
    simp only [levelsAll]
    rcases List.mem_cons.1 h with rfl | h
    · exact le_max_left _ _
    · exact (ih h).trans (le_max_right _ _)

theorem alone_copy (t : PN) (d : Nat) : ∀ (p : List Nat) (n : PN), nodeAt t p = some n → levels n ≤ d → (copyP d p).alone (memOf t) = (.ok n.clear, memOf t) := by
  induction d with
  | zero => rintro p ⟨a, v, cs⟩ _ hl; simp [levels] at hl
  | succ d ih =>
    rintro p ⟨a, v, cs⟩ h hl
    have hlc : levelsAll cs ≤ d := by simpa [levels] using hl
    have loop : ∀ (k i : Nat), i + k = cs.length → (copyAllP d p ((cs.drop i).map (·.1)) i).alone (memOf t) = (.ok (PN.clearAll (cs.drop i)), memOf t) := by
      intro k
      induction k with
      | zero =>
        intro i hi
        rw [List.drop_eq_nil_of_le (by omega)]
        simp only [List.map_nil, copyAllP, Prog.alone, PN.clearAll]
      | succ k ihk =>
        intro i hi
        have hlt : i < cs.length := by omega
        have hc := nodeAt_child t a v cs p h i cs[i] (List.getElem?_eq_getElem hlt)
        rw [List.drop_eq_getElem_cons hlt]
        simp only [List.map_cons, copyAllP, PN.clearAll]
        rw [alone_andThen _ _ _ _ _ (ih _ _ hc ((levels_le cs _ (List.getElem_mem hlt)).trans hlc)), alone_andThen _ _ _ _ _ (ihk (i + 1) (by omega))]
        rfl
    have hco := alone_content t _ p h []
    rw [markAll_nil] at hco
    simp only [copyP]
    rw [alone_andThen _ _ _ _ _ hco]
    have := loop cs.length 0 (by omega)
    rw [List.drop_zero] at this
    simp only [PN.children]
    rw [alone_andThen _ _ _ _ _ this]
    simp only [Prog.alone, PN.clear, PN.value]

theorem alone_count (t : PN) (d : Nat) : ∀ (p : List Nat) (n : PN), nodeAt t p = some n → levels n ≤ d →
    (countP d p).alone (memOf t) = (.ok n.countUnaccessed, memOf t) := by
  induction d with
  | zero => rintro p ⟨a, v, cs⟩ _ hl; simp [levels] at hl
  | succ d ih =>
    rintro p ⟨a, v, cs⟩ h hl
    have hlc : levelsAll cs ≤ d := by simpa [levels] using hl
    have loop : ∀ (k i : Nat), i + k = cs.length →
        (countAllP d p ((cs.drop i).map (·.1)) i).alone (memOf t) = (.ok (PN.countUnaccessedAll (cs.drop i)), memOf t) := by
      intro k
      induction k with
      | zero =>
        intro i hi
        rw [List.drop_eq_nil_of_le (by omega)]
        simp only [List.map_nil, countAllP, Prog.alone, PN.countUnaccessedAll]
      | succ k ihk =>
        intro i hi
        have hlt : i < cs.length := by omega
        have hc := nodeAt_child t a v cs p h i cs[i] (List.getElem?_eq_getElem hlt)
        rw [List.drop_eq_getElem_cons hlt]
        simp only [List.map_cons, countAllP, PN.countUnaccessedAll]
        rw [alone_andThen _ _ _ _ _ (ih _ _ hc ((levels_le cs _ (List.getElem_mem hlt)).trans hlc)), alone_andThen _ _ _ _ _ (ihk (i + 1) (by omega))]
        rfl
    have hco := alone_content t _ p h []
    rw [markAll_nil] at hco
    have hfl : (flagP p).alone (memOf t) = (.ok a, memOf t) := by simp only [flagP, Prog.alone, memOf, h, PN.acc]
    simp only [countP]
    rw [alone_andThen _ _ _ _ _ hfl, alone_andThen _ _ _ _ _ hco]
    have := loop cs.length 0 (by omega)
    rw [List.drop_zero] at this
    simp only [PN.children]
    rw [alone_andThen _ _ _ _ _ this]
    simp only [Prog.alone, PN.countUnaccessed]

/-- A thread on its own: every call gives the answer, and leaves the tree, that the functions of the other claims about property trees give. -/
theorem C127_alone (t n : PN) (c : Call) (h : nodeAt t c.node = some n) (hd : c.deepEnough n) :
    c.run.alone (memOf t) = ((c.sequential n).1, memOf (replaceAt t c.node (c.sequential n).2)) := by
  obtain ⟨a, v, cs⟩ := n
  have e0 : memOf t = markAll (memOf t) [] := (markAll_nil _).symm
  have acc : ∀ p, nodeAt t p = some (.mk a v cs) → memOf (replaceAt t p (.mk true v cs)) = markAll (memOf t) [p] := by
    intro p h
    rw [show PN.mk true v cs = (PN.mk a v cs).access from rfl, memOf_replace t _ _ p h [[]] (memOf_access (.mk a v cs))]
    simp
  have acc2 : ∀ p i kn, nodeAt t p = some (.mk a v cs) → cs[i]? = some kn →
      memOf (replaceAt t p (.mk true v (PN.modifyAt PN.access i cs))) = markAll (memOf t) [p, p ++ [i]] := by
    intro p i kn h hi
    rw [memOf_replace t _ _ p h _ (memOf_access_child a v cs i kn hi)]
    simp
  cases c with
  | hasValue p =>
    have h : nodeAt t p = some (.mk a v cs) := h
    simp only [Call.run, Call.sequential, Call.node, memOf_self t _ p h]
    rw [e0, alone_andThen _ _ _ _ _ (alone_content t _ p h [])]
    rfl
  | size p =>
    have h : nodeAt t p = some (.mk a v cs) := h
    simp only [Call.run, Call.sequential, Call.node, memOf_self t _ p h]
    rw [e0, alone_andThen _ _ _ _ _ (alone_content t _ p h [])]
    simp [Prog.alone, PN.size]
  | empty p =>
    have h : nodeAt t p = some (.mk a v cs) := h
    simp only [Call.run, Call.sequential, Call.node, memOf_self t _ p h]
    rw [e0, alone_andThen _ _ _ _ _ (alone_content t _ p h [])]
    simp [Prog.alone, PN.empty]
  | copy d p =>
    have h : nodeAt t p = some (.mk a v cs) := h
    simp only [Call.run, Call.sequential, Call.node, memOf_self t _ p h]
    rw [alone_andThen _ _ _ _ _ (alone_copy t d p _ h hd)]
    rfl
  | isAccessed p =>
    have h : nodeAt t p = some (.mk a v cs) := h
    have hfl : (flagP p).alone (memOf t) = (.ok a, memOf t) := by simp only [flagP, Prog.alone, memOf, h, PN.acc]
    simp only [Call.run, Call.sequential, Call.node, memOf_self t _ p h]
    rw [alone_andThen _ _ _ _ _ hfl]
    rfl
  | countUnaccessed d p =>
    have h : nodeAt t p = some (.mk a v cs) := h
    simp only [Call.run, Call.sequential, Call.node, memOf_self t _ p h]
    rw [alone_andThen _ _ _ _ _ (alone_count t d p _ h hd)]
    rfl
  | getValue p =>
    have h : nodeAt t p = some (.mk a v cs) := h
    simp only [Call.run, Call.sequential, Call.node, PN.access, acc p h, getValueP]
    have : (Prog.bind (accessP p) fun _ => (contentP p).andThen fun c => Prog.ret (Res.ok c.1)).alone (memOf t) = (.ok v, markAll (memOf t) [p]) := by
      rw [e0, alone_bind, alone_access]
      dsimp only
      rw [markAll_markAll, alone_andThen _ _ _ _ _ (alone_content t _ p h _)]
      simp [Prog.alone, PN.value, markAll_markAll]
    rw [alone_andThen _ _ _ _ _ this]
    rfl
  | get p =>
    have h : nodeAt t p = some (.mk a v cs) := h
    have := alone_get t _ p h []
    rw [← e0] at this
    simp only [Call.run]
    rw [alone_andThen _ _ _ _ _ this]
    simp only [Call.sequential, PN.get, PN.castStr, Call.node, PN.clear, PN.value, Res.bind_ok, PN.access, acc p h, Prog.alone, List.nil_append]
  | getAll p =>
    have h : nodeAt t p = some (.mk a v cs) := h
    simp only [Call.run, Call.sequential, Call.node, PN.value, PN.children]
    rw [alone_bind, alone_access, alone_bind, alone_access]
    dsimp only
    rw [markAll_markAll, alone_andThen _ _ _ _ _ (alone_content t _ p h _)]
    simp only [PN.children, List.length_map]
    rw [alone_andThen _ _ _ _ _ (alone_getAll t a v cs p h cs.length 0 _ (by omega)), memOf_replace t _ _ p h _ (memOf_access_all a v cs)]
    simp only [Prog.alone, List.drop_zero]
    exact Prod.ext rfl (markAll_congr _ _ _ (by simp))
  | hasKey p key =>
    have h : nodeAt t p = some (.mk a v cs) := h
    simp only [Call.run]
    rw [e0, alone_andThen _ _ _ _ _ (alone_find t _ p h key [])]
    simp only [Call.sequential, PN.hasKey, Call.node, acc p h, Prog.alone, List.nil_append, PN.children]
  | hasValueAt p key =>
    have h : nodeAt t p = some (.mk a v cs) := h
    simp only [Call.run]
    rw [e0, alone_andThen _ _ _ _ _ (alone_find t _ p h key [])]
    simp only [Call.sequential, PN.hasValueAt, Call.node, PN.children]
    cases hf : PN.findIdx key cs with
    | none => simp only [acc p h, Prog.alone, List.nil_append]
    | some i =>
      obtain ⟨kn, hk⟩ := findIdx_getElem key cs i hf
      simp only [hk]
      rw [alone_andThen _ _ _ _ _ (alone_content t _ _ (nodeAt_child t a v cs p h i kn hk) _)]
      simp only [acc p h, Prog.alone, List.nil_append, PN.hasValue]
  | getChild p key =>
    have h : nodeAt t p = some (.mk a v cs) := h
    simp only [Call.run]
    rw [e0, alone_andThen _ _ _ _ _ (alone_find t _ p h key [])]
    simp only [Call.sequential, PN.getChild, Call.node, PN.children]
    cases hf : PN.findIdx key cs with
    | none => simp only [acc p h, Prog.alone, List.nil_append, PN.access]
    | some i =>
      simp only
      rw [alone_bind, alone_access]
      simp only [acc p h, Prog.alone, List.nil_append, markAll_markAll]
      rw [markAll_congr]; simp
  | getChildAt p i =>
    have h : nodeAt t p = some (.mk a v cs) := h
    simp only [Call.run]
    rw [e0, alone_andThen _ _ _ _ _ (alone_content t _ p h []), ← e0]
    simp only [Call.sequential, PN.getChildAt, Call.node, PN.children, List.length_map]
    cases hi : cs[i]? with
    | none =>
      have := List.getElem?_eq_none_iff.1 hi
      rw [if_neg (by omega)]
      simp only [memOf_self t _ p h, Prog.alone, markAll_nil]
    | some kn =>
      rw [if_pos (List.getElem?_eq_some_iff.1 hi).1, alone_bind, alone_access]
      simp only [acc p h, Prog.alone, markAll_nil]
  | getKey p i =>
    have h : nodeAt t p = some (.mk a v cs) := h
    simp only [Call.run]
    rw [e0, alone_andThen _ _ _ _ _ (alone_content t _ p h []), ← e0]
    simp only [Call.sequential, PN.getKey, Call.node, PN.children, List.getElem?_map]
    cases hi : cs[i]? with
    | none => simp only [memOf_self t _ p h, Prog.alone, markAll_nil, Option.map_none]
    | some kn =>
      simp only [Option.map_some]
      rw [alone_bind, alone_access]
      simp only [acc p h, Prog.alone, markAll_nil]
  | getKeyed p key =>
    have h : nodeAt t p = some (.mk a v cs) := h
    simp only [Call.run]
    rw [e0, alone_andThen _ _ _ _ _ (alone_find t _ p h key [])]
    simp only [Call.sequential, PN.getKeyed, Call.node, PN.children]
    cases hf : PN.findIdx key cs with
    | none => simp only [acc p h, Prog.alone, List.nil_append, PN.access]
    | some i =>
      obtain ⟨kn, hk⟩ := findIdx_getElem key cs i hf
      simp only [hk]
      rw [alone_bind, alone_access]
      dsimp only
      rw [markAll_markAll, alone_andThen _ _ _ _ _ (alone_get t _ _ (nodeAt_child t a v cs p h i kn hk) _)]
      obtain ⟨k, c⟩ := kn
      obtain ⟨b, w, ds⟩ := c
      simp only [PN.castStr, PN.clear, PN.value, Res.bind_ok, acc2 p i _ h hk, Prog.alone]
      rw [markAll_congr]; simp
  | getDef p key dflt =>
    have h : nodeAt t p = some (.mk a v cs) := h
    simp only [Call.run]
    rw [e0, alone_andThen _ _ _ _ _ (alone_find t _ p h key [])]
    simp only [Call.sequential, PN.getDef, PN.getKeyed, Call.node, PN.children]
    cases hf : PN.findIdx key cs with
    | none => simp only [acc p h, Prog.alone, List.nil_append]
    | some i =>
      obtain ⟨kn, hk⟩ := findIdx_getElem key cs i hf
      simp only [hk]
      rw [alone_andThen _ _ _ _ _ (alone_get t _ _ (nodeAt_child t a v cs p h i kn hk) _)]
      obtain ⟨k, c⟩ := kn
      obtain ⟨b, w, ds⟩ := c
      simp only [PN.castStr, PN.clear, PN.value, Res.bind_ok, acc2 p i _ h hk, Prog.alone]
      rw [markAll_congr]; simp
  | tryGetChild p key =>
    have h : nodeAt t p = some (.mk a v cs) := h
    simp only [Call.run]
    rw [alone_bind, alone_access]
    dsimp only
    rw [alone_andThen _ _ _ _ _ (alone_find t _ p h key [p])]
    simp only [Call.sequential, PN.tryGetChild, Call.node, PN.children]
    cases hf : PN.findIdx key cs with
    | none =>
      simp only [acc p h, Prog.alone, Option.map_none]
      rw [markAll_congr]; simp
    | some i =>
      obtain ⟨kn, hk⟩ := findIdx_getElem key cs i hf
      simp only [Option.map_some]
      rw [alone_bind, alone_access]
      simp only [acc2 p i _ h hk, Prog.alone, markAll_markAll]
      rw [markAll_congr]; simp

-- A tree with two parts, and two threads that read one each; a third copies the tree.
private def pair : PN := .mk false [] [(b!"a", .mk false b!"1" [(b!"x", .mk false b!"2" [])]), (b!"b", .mk false b!"3" [])]

private def reader (p : List Nat) : Client :=
  .call (.tryGetChild p b!"x") fun
    | .ok (.ref (some q)) => .call (.get q) fun _ => .done
    | _ => .call (.get p) fun _ => .done

private def threads : List (Client × Option (List Nat)) :=
  [(reader [0], some [0]), (reader [1], some [1]), (.call (.copy 3 []) fun _ => .done, none)]

example : (∀ c ∈ threads, c.1.KeepsTo c.2) ∧ threads.Pairwise fun a b => Apart a.2 b.2 := by
  have keep : ∀ p, (reader p).Within p := by
    intro p
    refine ⟨Or.inr (List.prefix_refl _), fun a ha => ?_⟩
    dsimp only
    split
    · exact ⟨Or.inr ha, fun _ _ => trivial⟩
    · exact ⟨Or.inr (List.prefix_refl _), fun _ _ => trivial⟩
  constructor
  · intro c hc
    simp only [threads, List.mem_cons, List.not_mem_nil, or_false] at hc
    rcases hc with rfl | rfl | rfl
    · exact keep _
    · exact keep _
    · exact ⟨rfl, fun _ => trivial⟩
  · simp [threads, Apart]

-- In one of the schedules the first thread has its answers after seven accesses.
example : (match ((Machine.start (memOf pair) (threads.map (·.1.prog))).run [0, 1, 0, 1, 0, 0, 1, 0, 1, 0, 0, 1, 1]).threads[0]? with
    | some (Prog.ret [Res.ok (Ans.ref (some q)), Res.ok (Ans.text s)]) => decide (q = [0, 0] ∧ s = b!"2")
    | _ => false) = true := by decide +kernel

-- Two threads that look for keys in the root.
example : Race ((Machine.start (memOf pair) ([Client.call (.hasKey [] b!"a") fun _ => .done, .call (.hasKey [] b!"b") fun _ => .done].map (·.prog))).run [0, 0, 1, 1]).log :=
  C127_same_node_refuted pair _ 0 1 (by decide) (.hasKey [] b!"a") (.hasKey [] b!"b") _ _ rfl rfl rfl (Or.inl rfl) rfl _ (by decide) (by decide)

end Flut.Threads
