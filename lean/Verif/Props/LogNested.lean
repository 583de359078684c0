import Verif.Spec.LogNested
import Verif.Props.Log

/-!
# Property theorems for sinks that use the log: C146
-/

namespace Flut
namespace Log

/-- The state corresponds to the specification. -/
structure NRep (st : Nest) (x : SinkSpec × List Sent) : Prop where
  log : Rep st.log x.1
  sent : st.sent = x.2

/-- Keeps the list of sinks. -/
def keeps : Act → Prop
  | .message _ _ => True
  | .op (.setLevel _ _) => True
  | .op (.setGlobal _) => True
  | .op .getGlobal => True
  | .op _ => False

theorem keeps_step {σ σ' : SinkSpec} {o : Op} (h : keeps (.op o)) (hs : σ.step o = .ok σ') : σ'.registered = σ.registered := by
  cases o <;> simp only [keeps] at h
  · simp only [SinkSpec.step] at hs
    split at hs
    · cases hs
    · injection hs with hs; rw [← hs]
  · injection hs with hs; rw [← hs]
  · injection hs with hs; rw [← hs]

/-- What one of the functions of the model does is what the specification says; changes happen only outside of sinks. -/
theorem sound {b : Behaviour} (hb : Settled b) : ∀ n,
    (∀ a st st' x, NRep st x → act b n a st = .ok st' → ∃ y, NRep st' y ∧ Calls b [a] x y ∧
      (keeps a → st'.changes = st.changes ∧ y.1.registered = x.1.registered)) := by
  intro n
  induction n with
  | zero => intro a st st' x _ h; cases h
  | succ n ih =>
    have hacts : ∀ as st st' x, NRep st x → acts (act b n) as st = .ok st' → ∃ y, NRep st' y ∧ Calls b as x y ∧
        ((∀ a ∈ as, keeps a) → st'.changes = st.changes ∧ y.1.registered = x.1.registered) := by
      intro as
      induction as with
      | nil =>
        intro st st' x r h
        injection h with h
        subst h
        exact ⟨x, r, .nil x, fun _ => ⟨rfl, rfl⟩⟩
      | cons a as iha =>
        intro st st' x r h
        obtain ⟨s1, h1, h2⟩ := Res.bind_eq_ok.1 h
        obtain ⟨y, r1, c1, k1⟩ := ih a st s1 x r h1
        obtain ⟨z, r2, c2, k2⟩ := iha s1 st' y r1 h2
        refine ⟨z, r2, ?_, ?_⟩
        · cases c1 with
          | op e c => cases c; exact .op e c2
          | message g c => cases c; exact .message g c2
        · intro hk
          obtain ⟨a1, a2⟩ := k1 (hk a (by simp))
          obtain ⟨b1, b2⟩ := k2 (fun a ha => hk a (by simp [ha]))
          exact ⟨b1.trans a1, b2.trans a2⟩
    have hwalk : ∀ l msg ss st st' x, NRep st x → (∀ s ∈ ss, s ∈ x.1.registered) →
        walk (acts (act b n)) b l msg ss st = .ok st' →
        ∃ y, NRep st' y ∧ Gets b l msg ss x y ∧ st'.changes = st.changes ∧ y.1.registered = x.1.registered := by
      intro l msg ss
      induction ss with
      | nil =>
        intro st st' x r _ h
        injection h with h
        subst h
        exact ⟨x, r, .nil x, rfl, rfl⟩
      | cons s ss ihs =>
        intro st st' x r hss h
        obtain ⟨own, h1, h2⟩ := Res.bind_eq_ok.1 h
        have hown : x.1.level s = some own := by
          rw [← r.log.objects]
          unfold levelOf at h1
          split at h1
          · injection h1 with h1; subst h1; assumption
          · cases h1
        by_cases hle : own ≤ l
        · rw [if_pos hle] at h2
          obtain ⟨s1, h3, h4⟩ := Res.bind_eq_ok.1 h2
          obtain ⟨y, r1, c1, k1⟩ := hacts _ { st with sent := st.sent ++ [(s, l, msg)] } s1 (x.1, x.2 ++ [(s, l, msg)])
            ⟨r.log, congrArg (· ++ [(s, l, msg)]) r.sent⟩ h3
          obtain ⟨e1, e2⟩ := k1 (by
            intro a ha
            have := hb _ _ _ _ a ha
            revert this
            cases a with
            | message _ _ => exact id
            | op o => cases o <;> exact id)
          simp only at e1
          rw [if_pos e1] at h4
          obtain ⟨z, r2, c2, e3, e4⟩ := ihs s1 st' y r1 (by
            intro t ht
            rw [e2]
            exact hss t (by simp [ht])) h4
          refine ⟨z, r2, .take hown hle ?_ c2, e3.trans e1, e4.trans e2⟩
          rw [r.sent] at c1
          exact c1
        · rw [if_neg hle] at h2
          obtain ⟨z, r2, c2, e3, e4⟩ := ihs st st' x r (fun t ht => hss t (by simp [ht])) h2
          exact ⟨z, r2, .skip hown (by omega) c2, e3, e4⟩
    intro a st st' x r h
    cases a with
    | message l msg =>
      simp only [act] at h
      by_cases ht : st.log.testLevel l = true
      · rw [if_pos ht, r.log.sinks] at h
        obtain ⟨y, r1, c1, e1, e2⟩ := hwalk l msg _ st st' x r (fun s hs => hs) h
        exact ⟨y, r1, .message c1 (.nil y), fun _ => ⟨e1, e2⟩⟩
      · rw [if_neg ht] at h
        injection h with h
        subst h
        refine ⟨x, r, .message ?_ (.nil x), fun _ => ⟨rfl, rfl⟩⟩
        have : ∀ ss, (∀ s ∈ ss, s ∈ x.1.registered) → Gets b l msg ss x x := by
          intro ss
          induction ss with
          | nil => intro _; exact .nil x
          | cons s ss ihs =>
            intro hss
            obtain ⟨own, hown⟩ := Option.isSome_iff_exists.1 (r.log.exist s (hss s (by simp)))
            have h1 := r.log.lowest s (hss s (by simp)) own hown
            simp only [testLevel, decide_eq_true_eq, not_le] at ht
            exact .skip hown (by omega) (ihs fun t ht => hss t (by simp [ht]))
        exact this _ fun s hs => hs
    | op o =>
      simp only [act] at h
      obtain ⟨g, h1, h2⟩ := Res.bind_eq_ok.1 h
      injection h2 with h2
      subst h2
      have ag := rep_run r.log o
      rw [h1] at ag
      cases hs : x.1.step o with
      | ok σ =>
        rw [hs] at ag
        have ag : Rep g σ := ag
        refine ⟨(σ, x.2), ⟨ag, r.sent⟩, .op hs (.nil _), ?_⟩
        intro hk
        have e := keeps_step hk hs
        refine ⟨?_, e⟩
        have : g.sinks = st.log.sinks := by rw [ag.sinks, r.log.sinks, e]
        simp only [if_pos this, Nat.add_zero]
      | throws e => rw [hs] at ag; exact ag.elim
      | ub => rw [hs] at ag; exact ag.elim
      | diverges => rw [hs] at ag; exact ag.elim

theorem sound_acts {b : Behaviour} (hb : Settled b) (n : Nat) : ∀ as st st' x, NRep st x → acts (act b n) as st = .ok st' →
    ∃ y, NRep st' y ∧ Calls b as x y ∧ ((∀ a ∈ as, keeps a) → st'.changes = st.changes ∧ y.1.registered = x.1.registered) := by
  intro as
  induction as with
  | nil =>
    intro st st' x r h
    injection h with h
    subst h
    exact ⟨x, r, .nil x, fun _ => ⟨rfl, rfl⟩⟩
  | cons a as iha =>
    intro st st' x r h
    obtain ⟨s1, h1, h2⟩ := Res.bind_eq_ok.1 h
    obtain ⟨y, r1, c1, k1⟩ := sound hb n a st s1 x r h1
    obtain ⟨z, r2, c2, k2⟩ := iha s1 st' y r1 h2
    refine ⟨z, r2, ?_, ?_⟩
    · cases c1 with
      | op e c => cases c; exact .op e c2
      | message g c => cases c; exact .message g c2
    · intro hk
      obtain ⟨a1, a2⟩ := k1 (hk a (by simp))
      obtain ⟨b1, b2⟩ := k2 (fun a ha => hk a (by simp [ha]))
      exact ⟨b1.trans a1, b2.trans a2⟩

theorem settled_keeps {b : Behaviour} (hb : Settled b) {ev : List Sent} {s l : Nat} {msg : Str} : ∀ a ∈ b ev s l msg, keeps a := by
  intro a ha
  have := hb _ _ _ _ a ha
  revert this
  cases a with
  | message _ _ => exact id
  | op o => cases o <;> exact id

/-! ## Depth -/

theorem acts_mono {f g : Act → Nest → Res Nest} (h : ∀ a st st', f a st = .ok st' → g a st = .ok st') :
    ∀ as st st', acts f as st = .ok st' → acts g as st = .ok st' := by
  intro as
  induction as with
  | nil => intro st st' e; exact e
  | cons a as ih =>
    intro st st' e
    obtain ⟨s1, h1, h2⟩ := Res.bind_eq_ok.1 e
    exact Res.bind_eq_ok.2 ⟨s1, h a st s1 h1, ih s1 st' h2⟩

theorem walk_mono {f g : List Act → Nest → Res Nest} (h : ∀ as st st', f as st = .ok st' → g as st = .ok st') (b : Behaviour)
    (l : Nat) (msg : Str) : ∀ ss st st', walk f b l msg ss st = .ok st' → walk g b l msg ss st = .ok st' := by
  intro ss
  induction ss with
  | nil => intro st st' e; exact e
  | cons s ss ih =>
    intro st st' e
    obtain ⟨own, h1, h2⟩ := Res.bind_eq_ok.1 e
    refine Res.bind_eq_ok.2 ⟨own, h1, ?_⟩
    by_cases hle : own ≤ l
    · rw [if_pos hle] at h2 ⊢
      obtain ⟨s1, h3, h4⟩ := Res.bind_eq_ok.1 h2
      refine Res.bind_eq_ok.2 ⟨s1, h _ _ _ h3, ?_⟩
      by_cases hc : s1.changes = st.changes
      · rw [if_pos hc] at h4 ⊢
        exact ih s1 st' h4
      · rw [if_neg hc] at h4
        cases h4
    · rw [if_neg hle] at h2 ⊢
      exact ih st st' h2

theorem act_succ (b : Behaviour) : ∀ n a st st', act b n a st = .ok st' → act b (n + 1) a st = .ok st' := by
  intro n
  induction n with
  | zero => intro a st st' h; cases h
  | succ n ih =>
    intro a st st' h
    cases a with
    | message l msg =>
      simp only [act] at h
      show (if st.log.testLevel l then walk (acts (act b (n + 1))) b l msg st.log.sinks st else .ok st) = _
      by_cases ht : st.log.testLevel l = true
      · rw [if_pos ht] at h ⊢
        exact walk_mono (acts_mono ih) b l msg _ _ _ h
      · rw [if_neg ht] at h ⊢
        exact h
    | op o => exact h

theorem act_mono (b : Behaviour) {n m : Nat} (h : n ≤ m) {a : Act} {st st' : Nest} (e : act b n a st = .ok st') :
    act b m a st = .ok st' := by
  induction m, h using Nat.le_induction with
  | base => exact e
  | succ m _ ih => exact act_succ b m a st st' ih

/-! ## What the specification says is what happens -/

theorem gets_nothing {b : Behaviour} {l : Nat} {msg : Str} : ∀ {ss : List Nat} {x y : SinkSpec × List Sent},
    (∀ s ∈ ss, ∀ own, x.1.level s = some own → l < own) → Gets b l msg ss x y → y = x := by
  intro ss
  induction ss with
  | nil => intro x y _ h; cases h; rfl
  | cons s ss ih =>
    intro x y hx h
    cases h with
    | skip h1 h2 h3 => exact ih (fun t ht => hx t (by simp [ht])) h3
    | take h1 h2 _ _ =>
      have := hx s (by simp) _ h1
      omega

theorem complete {b : Behaviour} (hb : Settled b) {as : List Act} {x y : SinkSpec × List Sent} (h : Calls b as x y) :
    ∀ st, NRep st x → ∃ n st', acts (act b n) as st = .ok st' ∧ NRep st' y ∧ ((∀ a ∈ as, keeps a) → st'.changes = st.changes) := by
  refine Calls.rec (b := b)
    (motive_1 := fun as x y _ => ∀ st, NRep st x → ∃ n st', acts (act b n) as st = .ok st' ∧ NRep st' y ∧
      ((∀ a ∈ as, keeps a) → st'.changes = st.changes))
    (motive_2 := fun l msg ss x y _ => ∀ st, NRep st x → ∃ n st', walk (acts (act b n)) b l msg ss st = .ok st' ∧ NRep st' y ∧
      st'.changes = st.changes) ?_ ?_ ?_ ?_ ?_ ?_ h
  · intro x st r
    exact ⟨0, st, rfl, r, fun _ => rfl⟩
  · intro o as σ σ' ev y hs _ ih st r
    have ag := rep_run r.log o
    simp only at ag
    rw [hs] at ag
    cases hg : st.log.run o with
    | ok g =>
      rw [hg] at ag
      have ag : Rep g σ' := ag
      obtain ⟨n, st', h1, h2, h3⟩ := ih { st with log := g, changes := st.changes + if g.sinks = st.log.sinks then 0 else 1 }
        ⟨ag, r.sent⟩
      refine ⟨n + 1, st', Res.bind_eq_ok.2 ⟨_, ?_, acts_mono (act_succ b n) _ _ _ h1⟩, h2, ?_⟩
      · simp only [act, hg, Res.bind_ok]
      · intro hk
        have e := keeps_step (hk (.op o) (by simp)) hs
        have : g.sinks = st.log.sinks := by rw [ag.sinks, r.log.sinks, e]
        rw [h3 (fun a ha => hk a (by simp [ha]))]
        simp only [if_pos this, Nat.add_zero]
    | throws e => rw [hg] at ag; exact ag.elim
    | ub => rw [hg] at ag; exact ag.elim
    | diverges => rw [hg] at ag; exact ag.elim
  · intro l msg as x y z hg _ ih1 ih2 st r
    obtain ⟨n, s1, h1, h2, h3⟩ := ih1 st r
    obtain ⟨m, s2, h4, h5, h6⟩ := ih2 s1 h2
    by_cases ht : st.log.testLevel l = true
    · refine ⟨max n m + 1, s2, Res.bind_eq_ok.2 ⟨s1, ?_, ?_⟩, h5, ?_⟩
      · simp only [act, if_pos ht, r.log.sinks]
        exact walk_mono (acts_mono fun a st st' => act_mono b (Nat.le_max_left n m)) b l msg _ _ _ h1
      · exact acts_mono (fun a st st' => act_mono b (by omega)) _ _ _ h4
      · intro hk
        rw [h6 (fun a ha => hk a (by simp [ha])), h3]
    · have : y = x := by
        refine gets_nothing ?_ hg
        intro s hs own hown
        have := r.log.lowest s hs own hown
        simp only [testLevel, decide_eq_true_eq, not_le] at ht
        omega
      subst this
      obtain ⟨m, s2, h4, h5, h6⟩ := ih2 st r
      refine ⟨m + 1, s2, Res.bind_eq_ok.2 ⟨st, ?_, acts_mono (act_succ b m) _ _ _ h4⟩, h5, fun hk => h6 fun a ha => hk a (by simp [ha])⟩
      simp only [act, if_neg ht]
  · intro l msg x st r
    exact ⟨0, st, rfl, r, rfl⟩
  · intro l msg s ss x y own hown hl _ ih st r
    obtain ⟨n, st', h1, h2, h3⟩ := ih st r
    refine ⟨n, st', Res.bind_eq_ok.2 ⟨own, ?_, ?_⟩, h2, h3⟩
    · simp only [levelOf, r.log.objects, hown]
    · rw [if_neg (by omega)]
      exact h1
  · intro l msg s ss x y z own hown hl _ _ ih1 ih2 st r
    obtain ⟨n, s1, h1, h2, h3⟩ := ih1 { st with sent := st.sent ++ [(s, l, msg)] } ⟨r.log, congrArg (· ++ [(s, l, msg)]) r.sent⟩
    obtain ⟨m, s2, h4, h5, h6⟩ := ih2 s1 h2
    have e1 : s1.changes = st.changes := h3 (by
      intro a ha
      have := hb _ _ _ _ a ha
      revert this
      cases a with
      | message _ _ => exact id
      | op o => cases o <;> exact id)
    refine ⟨max n m, s2, Res.bind_eq_ok.2 ⟨own, ?_, ?_⟩, h5, h6.trans e1⟩
    · simp only [levelOf, r.log.objects, hown]
    · rw [if_pos hl]
      refine Res.bind_eq_ok.2 ⟨s1, ?_, ?_⟩
      · rw [r.sent] at h1 ⊢
        exact acts_mono (fun a st st' => act_mono b (Nat.le_max_left n m)) _ _ _ h1
      · rw [if_pos e1]
        exact walk_mono (acts_mono fun a st st' => act_mono b (Nat.le_max_right n m)) b l msg _ _ _ h4

/-! ## Sinks that only log what is less important end -/

/-- Everything a sink does in response to a message is to log what is less important than it, or to ask for or set the level of all
sinks. -/
def Modest (b : Behaviour) : Prop :=
  ∀ ev s l msg, ∀ a ∈ b ev s l msg, match a with
    | .message l' _ => l' < l
    | .op (.setGlobal _) => True
    | .op .getGlobal => True
    | .op _ => False

theorem Modest.settled {b : Behaviour} (hb : Modest b) : Settled b := by
  intro ev s l msg a ha
  have := hb ev s l msg a ha
  cases a with
  | message _ _ => trivial
  | op o => cases o <;> first | trivial | exact this.elim

theorem ends {b : Behaviour} (hb : Modest b) : ∀ n a st x, NRep st x →
    (match a with | .message l _ => l + 2 ≤ n | .op (.setGlobal _) => 1 ≤ n | .op .getGlobal => 1 ≤ n | .op _ => False) →
    ∃ st', act b n a st = .ok st' := by
  intro n
  induction n with
  | zero =>
    intro a st x _ h
    cases a with
    | message l _ => simp at h
    | op o => cases o <;> simp at h
  | succ n ih =>
    have hacts : ∀ as st x, NRep st x → (∀ a ∈ as, match a with
        | .message l _ => l + 2 ≤ n | .op (.setGlobal _) => 1 ≤ n | .op .getGlobal => 1 ≤ n | .op _ => False) →
        ∃ st', acts (act b n) as st = .ok st' := by
      intro as
      induction as with
      | nil => intro st x _ _; exact ⟨st, rfl⟩
      | cons a as iha =>
        intro st x r h
        obtain ⟨s1, h1⟩ := ih a st x r (h a (by simp))
        obtain ⟨y, r1, _, _⟩ := sound hb.settled n a st s1 x r h1
        obtain ⟨s2, h2⟩ := iha s1 y r1 (fun a ha => h a (by simp [ha]))
        exact ⟨s2, Res.bind_eq_ok.2 ⟨s1, h1, h2⟩⟩
    have hwalk : ∀ l msg, l + 2 ≤ n + 1 → ∀ ss st x, NRep st x → (∀ s ∈ ss, s ∈ x.1.registered) →
        ∃ st', walk (acts (act b n)) b l msg ss st = .ok st' := by
      intro l msg hl ss
      induction ss with
      | nil => intro st x _ _; exact ⟨st, rfl⟩
      | cons s ss ihs =>
        intro st x r hss
        obtain ⟨own, hown⟩ := Option.isSome_iff_exists.1 (r.log.exist s (hss s (by simp)))
        have hlev : st.log.levelOf s = .ok own := by simp only [levelOf, r.log.objects, hown]
        by_cases hle : own ≤ l
        · obtain ⟨s1, h1⟩ := hacts (b (st.sent ++ [(s, l, msg)]) s l msg) { st with sent := st.sent ++ [(s, l, msg)] }
            (x.1, x.2 ++ [(s, l, msg)]) ⟨r.log, congrArg (· ++ [(s, l, msg)]) r.sent⟩ (by
              intro a ha
              have := hb _ _ _ _ a ha
              cases a with
              | message l' _ =>
                simp only at this ⊢
                omega
              | op o => cases o <;> first | exact this.elim | (show 1 ≤ n; omega))
          obtain ⟨y, r1, _, k⟩ := sound_acts hb.settled n _ { st with sent := st.sent ++ [(s, l, msg)] } _
            (x.1, x.2 ++ [(s, l, msg)]) ⟨r.log, congrArg (· ++ [(s, l, msg)]) r.sent⟩ h1
          obtain ⟨e1, e2⟩ := k (settled_keeps hb.settled)
          obtain ⟨s2, h2⟩ := ihs s1 y r1 (by
            intro t ht
            rw [e2]
            exact hss t (by simp [ht]))
          refine ⟨s2, Res.bind_eq_ok.2 ⟨own, hlev, ?_⟩⟩
          rw [if_pos hle]
          refine Res.bind_eq_ok.2 ⟨s1, h1, ?_⟩
          rw [if_pos e1]
          exact h2
        · obtain ⟨s2, h2⟩ := ihs st x r (fun t ht => hss t (by simp [ht]))
          refine ⟨s2, Res.bind_eq_ok.2 ⟨own, hlev, ?_⟩⟩
          rw [if_neg hle]
          exact h2
    intro a st x r h
    cases a with
    | message l msg =>
      simp only at h
      simp only [act]
      by_cases ht : st.log.testLevel l = true
      · rw [if_pos ht]
        exact hwalk l msg h _ st x r (fun s hs => r.log.sinks ▸ hs)
      · rw [if_neg ht]
        exact ⟨st, rfl⟩
    | op o =>
      have ag := rep_run r.log o
      simp only [act]
      cases o with
      | setGlobal l =>
        cases hg : st.log.run (.setGlobal l) with
        | ok g => exact ⟨_, rfl⟩
        | throws e => rw [hg] at ag; exact ag.elim
        | ub => rw [hg] at ag; exact ag.elim
        | diverges => rw [hg] at ag; exact ag.elim
      | getGlobal =>
        cases hg : st.log.run .getGlobal with
        | ok g => exact ⟨_, rfl⟩
        | throws e => rw [hg] at ag; exact ag.elim
        | ub => rw [hg] at ag; exact ag.elim
        | diverges => rw [hg] at ag; exact ag.elim
      | _ => exact h.elim

theorem nrep_init : NRep {} (SinkSpec.init, []) := ⟨rep_init, rfl⟩

end Log

open Log

/-- Sinks that log and change levels while they receive a message: whatever a program does with such sinks, everything is given to
the sinks as specified: each registered sink in turn gets the message if its level admits it, and what it logs itself is
delivered before the next sink gets the message. -/
theorem C146_code (b : Behaviour) (hb : Settled b) (as : List Act) (n : Nat) (st : Nest) (h : acts (act b n) as {} = .ok st) :
    ∃ σ, Calls b as (SinkSpec.init, []) (σ, st.sent) ∧ LogShows st.log σ := by
  obtain ⟨y, r, c, _⟩ := sound_acts hb n as {} st _ nrep_init h
  refine ⟨y.1, ?_, r.log.shows⟩
  rw [r.sent]
  exact c

/-- And everything that is specified happens. -/
theorem C146_spec (b : Behaviour) (hb : Settled b) (as : List Act) (σ : SinkSpec) (ev : List Sent)
    (h : Calls b as (SinkSpec.init, []) (σ, ev)) :
    ∃ n st, (∀ m ≥ n, acts (act b m) as {} = .ok st) ∧ st.sent = ev ∧ LogShows st.log σ := by
  obtain ⟨n, st, h1, h2, _⟩ := complete hb h {} nrep_init
  exact ⟨n, st, fun m hm => acts_mono (fun a st st' => act_mono b hm) _ _ _ h1, h2.sent, h2.log.shows⟩

/-- If sinks log only what is less important than what they were given, every message returns, at a depth of its level at most. -/
theorem C146_ends (b : Behaviour) (hb : Modest b) (as : List Act) (n : Nat) (st : Nest) (h : acts (act b n) as {} = .ok st)
    (l : Nat) (msg : Str) : ∃ st', act b (l + 2) (.message l msg) st = .ok st' := by
  obtain ⟨y, r, _, _⟩ := sound_acts hb.settled n as {} st _ nrep_init h
  exact ends hb (l + 2) (.message l msg) st y r (Nat.le_refl _)

/-- The first sink notes every error at the level below it. -/
def noteErrors : Behaviour := fun _ s l _ => if s = 1 ∧ l = 5 then [.message 4 b!"noted"] else []

example : Modest noteErrors ∧ ∃ st, acts (act noteErrors 7) [.op (.create 1 3), .op (.create 2 1), .message 5 b!"x", .op (.setLevel 1 5),
    .message 5 b!"y", .message 1 b!"z"] {} = .ok st ∧
    st.sent = [(1, 5, b!"x"), (1, 4, b!"noted"), (2, 4, b!"noted"), (2, 5, b!"x"), (1, 5, b!"y"), (2, 4, b!"noted"), (2, 5, b!"y"),
      (2, 1, b!"z")] := by
  refine ⟨?_, ⟨_, rfl, rfl⟩⟩
  intro ev s l msg a ha
  unfold noteErrors at ha
  split at ha
  · rename_i h
    rw [List.mem_singleton] at ha
    subst ha
    show 4 < l
    omega
  · cases ha

/-- Two sinks do not see messages in the same order: one gets what the other logs in response to a message before the message. -/
theorem C146_order_refuted : ∃ b : Behaviour, Modest b ∧
    ∃ st, acts (act b 7) [.op (.create 1 1), .op (.create 2 1), .message 5 b!"x"] {} = .ok st ∧
      (st.sent.filter (·.1 = 1)).map (·.2) = [(5, b!"x"), (4, b!"noted")] ∧
      (st.sent.filter (·.1 = 2)).map (·.2) = [(4, b!"noted"), (5, b!"x")] := by
  refine ⟨noteErrors, ?_, ⟨_, rfl, rfl, rfl⟩⟩
  intro ev s l msg a ha
  unfold noteErrors at ha
  split at ha
  · rename_i h
    rw [List.mem_singleton] at ha
    subst ha
    show 4 < l
    omega
  · cases ha

/-- A sink that logs at its own level whenever it gets a message never returns. -/
theorem C146_ends_refuted : ∃ b : Behaviour, Settled b ∧
    ∀ n, acts (act b n) [.op (.create 1 3), .message 3 b!"x"] {} = .diverges := by
  refine ⟨fun _ _ l msg => [.message l msg], ?_, ?_⟩
  · intro ev s l msg a ha
    rw [List.mem_singleton] at ha
    subst ha
    trivial
  · have key : ∀ n st, st.log.sinks = [1] → st.log.objects 1 = some 3 → st.log.lowest = 3 →
        act (fun _ _ l msg => [.message l msg]) n (.message 3 b!"x") st = .diverges := by
      intro n
      induction n with
      | zero => intro st _ _ _; rfl
      | succ n ih =>
        intro st h1 h2 h3
        have ht : st.log.testLevel 3 = true := by simp [testLevel, h3]
        simp only [act, if_pos ht, h1, walk, levelOf, h2, Res.bind_ok, Nat.le_refl, if_true, acts]
        rw [ih { st with sent := st.sent ++ [(1, 3, b!"x")] } h1 h2 h3]
        rfl
    intro n
    cases n with
    | zero => rfl
    | succ n => exact congrArg (fun r => r >>= acts _ []) (key (n + 1) _ rfl rfl rfl)

/-- Creating or destroying a sink in response to a message is undefined, even if the sink is created for that moment only, and so is
a sink that unregisters itself when it has got what it waited for. -/
theorem C146_change_refuted : ∀ b : Behaviour, (∀ ev l msg, b ev 1 l msg = [.op (.create 2 3)] ∨
      b ev 1 l msg = [.op (.create 2 3), .op (.destroy 2)] ∨ b ev 1 l msg = [.op (.destroy 1)] ∨ b ev 1 l msg = [.op (.remove 1)]) →
    ∀ n, acts (act b (n + 2)) [.op (.create 1 3), .message 3 b!"x"] {} = .ub := by
  intro b hb n
  have key : ∀ as st', b [(1, 3, b!"x")] 1 3 b!"x" = as →
      acts (act b (n + 1)) as ⟨⟨Function.update (fun _ => none) 1 (some 3), [1], 3⟩, [(1, 3, b!"x")], 1⟩ = .ok st' → st'.changes ≠ 1 →
      acts (act b (n + 2)) [.op (.create 1 3), .message 3 b!"x"] {} = .ub := by
    intro as st' h h' hc
    subst h
    show ((acts (act b (n + 1)) (b [(1, 3, b!"x")] 1 3 b!"x")
      ⟨⟨Function.update (fun _ => none) 1 (some 3), [1], 3⟩, [(1, 3, b!"x")], 1⟩ >>= fun st' =>
      if st'.changes = 1 then walk (acts (act b (n + 1))) b 3 b!"x" [] st' else .ub) >>= acts (act b (n + 2)) []) = .ub
    rw [h', Res.bind_ok, if_neg hc]
    rfl
  rcases hb [(1, 3, b!"x")] 3 b!"x" with h | h | h | h
  all_goals exact key _ _ h rfl (by decide)

example : ∃ b : Behaviour, ∀ ev l msg, b ev 1 l msg = [.op (.destroy 1)] := ⟨fun _ _ _ _ => [.op (.destroy 1)], fun _ _ _ => rfl⟩

end Flut
