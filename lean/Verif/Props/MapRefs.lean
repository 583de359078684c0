import Verif.Proofs.MapRefs

/-!
# C140: references to the values of a `flat_map`
-/

namespace Flut

open Spec MapRefs

variable {K V : Type} [DecidableEq K]

/-- C140. Whatever a program does with a `flat_map` and references to its values, what it reads is what it reads from a dictionary with references by key, and
using a reference is undefined exactly when the dictionary has lost it. -/
theorem C140_references (grow : Nat → Nat → Nat) (dflt : V) (ops : List (Op K V)) :
    Agree (fun p q => p.1 = q.1) (MapRefs.empty.run grow dflt ops) (Dict.empty.run grow dflt ops) := by
  have h := Shows.empty.run grow dflt ops
  cases h1 : MapRefs.empty.run grow dflt ops <;> cases h2 : Dict.empty.run grow dflt ops <;> rw [h1, h2] at h <;> first | exact h.1 | exact h

theorem MapRefs.run_append (grow : Nat → Nat → Nat) (dflt : V) (a b : List (Op K V)) : ∀ {m m' : MapRefs K V} {as : List V},
    m.run grow dflt (a ++ b) = .ok (as, m') → ∃ m1 as1 as2, m.run grow dflt a = .ok (as1, m1) ∧ m1.run grow dflt b = .ok (as2, m') := by
  induction a with
  | nil => intro m m' as h; exact ⟨m, [], as, rfl, h⟩
  | cons op a ih =>
    intro m m' as h
    rw [List.cons_append, MapRefs.run] at h
    obtain ⟨⟨x, m1⟩, h1, h2⟩ := Res.bind_eq_ok.1 h
    obtain ⟨⟨y, m2⟩, h3, h4⟩ := Res.bind_eq_ok.1 h2
    cases h4
    obtain ⟨m3, as1, as2, h5, h6⟩ := ih h3
    exact ⟨m3, x.toList ++ as1, as2, by rw [MapRefs.run, h1, Res.bind_ok]; simp only [h5, Res.bind_ok], h6⟩

theorem MapRefs.run_shows (grow : Nat → Nat → Nat) (dflt : V) {m m' : MapRefs K V} {d : Dict K V} (h : Shows m d) {ops : List (Op K V)} {as : List V}
    (h1 : m.run grow dflt ops = .ok (as, m')) : ∃ d', d.run grow dflt ops = .ok (as, d') ∧ Shows m' d' := by
  have h2 := h.run grow dflt ops
  rw [h1] at h2
  cases h3 : d.run grow dflt ops <;> rw [h3] at h2 <;> try exact h2.elim
  rename_i q
  obtain ⟨as', d'⟩ := q
  exact ⟨d', by rw [show as = as' from h2.1], h2.2⟩

/-- Steps that remove keys, or make `h` another reference. -/
def Loses (h : Nat) : Op K V → Prop
  | .erase _ => True
  | .clear => True
  | .ref h' _ => h' = h
  | _ => False

theorem touch_keeps (grow : Nat → Nat → Nat) (dflt : V) (k : K) (d : Dict K V) :
    d.order.length ≤ (d.touch grow dflt k).order.length ∧
      ((d.touch grow dflt k).order.length ≤ d.room → (d.touch grow dflt k).room = d.room ∧ (d.touch grow dflt k).handle = d.handle) := by
  unfold Dict.touch
  split
  · exact ⟨Nat.le_refl _, fun _ => ⟨rfl, rfl⟩⟩
  · split
    · refine ⟨by simp, ?_⟩
      simp only [List.length_append, List.length_singleton]
      omega
    · exact ⟨by simp, fun _ => ⟨rfl, rfl⟩⟩

theorem step_keeps (grow : Nat → Nat → Nat) (dflt : V) (h : Nat) (op : Op K V) (hop : ¬ Loses h op) {d d' : Dict K V} {a : Option V}
    (hs : d.step grow dflt op = .ok (a, d')) :
    d.order.length ≤ d'.order.length ∧ (d'.order.length ≤ d.room → d'.room = d.room ∧ d'.handle h = d.handle h) := by
  cases op with
  | ref h' k =>
    simp only [Dict.step] at hs
    cases hs
    obtain ⟨h1, h2⟩ := touch_keeps grow dflt k d
    refine ⟨h1, fun h3 => ?_⟩
    obtain ⟨h4, h5⟩ := h2 h3
    refine ⟨h4, ?_⟩
    simp only
    rw [if_neg (fun e => hop e.symm), h5]
  | assign k v =>
    simp only [Dict.step] at hs
    cases hs
    obtain ⟨h1, h2⟩ := touch_keeps grow dflt k d
    exact ⟨h1, fun h3 => ⟨(h2 h3).1, congrFun (h2 h3).2 h⟩⟩
  | assignFrom rf k j =>
    simp only [Dict.step] at hs
    generalize (if rf = true then k else j) = b at *
    generalize (if rf = true then j else k) = a at *
    split at hs
    · cases hs
    · split at hs
      · cases hs
      · cases hs
        obtain ⟨h1, h2⟩ := touch_keeps grow dflt a d
        obtain ⟨h3, h4⟩ := touch_keeps grow dflt b (d.touch grow dflt a)
        refine ⟨Nat.le_trans h1 h3, fun h5 => ?_⟩
        simp only [Dict.write] at h5 ⊢
        obtain ⟨h6, h7⟩ := h2 (by omega)
        obtain ⟨h8, h9⟩ := h4 (by omega)
        exact ⟨by rw [h8, h6], by rw [h9, h7]⟩
  | load h' =>
    simp only [Dict.step] at hs
    split at hs
    · cases hs
    · split at hs <;> cases hs
      exact ⟨Nat.le_refl _, fun _ => ⟨rfl, rfl⟩⟩
  | store h' v =>
    simp only [Dict.step] at hs
    split at hs <;> cases hs
    exact ⟨Nat.le_refl _, fun _ => ⟨rfl, rfl⟩⟩
  | erase k => exact (hop trivial).elim
  | clear => exact (hop trivial).elim

theorem run_keeps (grow : Nat → Nat → Nat) (dflt : V) (h : Nat) (ops : List (Op K V)) : ∀ {d d' : Dict K V} {as : List V},
    (∀ op ∈ ops, ¬ Loses h op) → d.run grow dflt ops = .ok (as, d') →
    d.order.length ≤ d'.order.length ∧ (d'.order.length ≤ d.room → d'.handle h = d.handle h) := by
  induction ops with
  | nil => intro d d' as _ h1; cases h1; exact ⟨Nat.le_refl _, fun _ => rfl⟩
  | cons op ops ih =>
    intro d d' as hops h1
    rw [Dict.run] at h1
    obtain ⟨⟨x, d1⟩, h2, h3⟩ := Res.bind_eq_ok.1 h1
    obtain ⟨⟨y, d2⟩, h4, h5⟩ := Res.bind_eq_ok.1 h3
    cases h5
    obtain ⟨h6, h7⟩ := step_keeps grow dflt h op (hops op (by simp)) h2
    obtain ⟨h8, h9⟩ := ih (fun o ho => hops o (by simp [ho])) h4
    refine ⟨Nat.le_trans h6 h8, fun h10 => ?_⟩
    obtain ⟨h11, h12⟩ := h7 (by omega)
    rw [h9 (by omega), h12]

/-- C140. A reference to the value of a key can be used, and reads and writes the value of that key, until a key is erased or there are more keys than the vector had room for when the
reference was made. In particular until a key is added: `hcap` holds if there are as many keys as then. -/
theorem C140_stays (grow : Nat → Nat → Nat) (dflt : V) (pre ops : List (Op K V)) (h : Nat) (k : K) (as bs : List V) (m0 m : MapRefs K V)
    (h0 : MapRefs.empty.run grow dflt (pre ++ [.ref h k]) = .ok (as, m0)) (h1 : m0.run grow dflt ops = .ok (bs, m))
    (hops : ∀ op ∈ ops, ¬ Loses h op) (hcap : m.map.length ≤ m0.slots.cap) :
    (∃ v, m.step grow dflt (.load h) = .ok (some v, m) ∧ m.map.at' k = .ok v) ∧
    ∀ v, ∃ m', m.step grow dflt (.store h v) = .ok (none, m') ∧ m'.map = m.map.assign dflt k v := by
  obtain ⟨d0, h2, h3⟩ := run_shows grow dflt Shows.empty h0
  obtain ⟨d, h4, h5⟩ := run_shows grow dflt h3 h1
  have h6 : d0.handle h = some k := by
    obtain ⟨m1, _, _, h7, h8⟩ := MapRefs.run_append grow dflt _ _ h0
    obtain ⟨d1, h9, h10⟩ := run_shows grow dflt Shows.empty h7
    obtain ⟨d2, h11, h12⟩ := run_shows grow dflt h10 h8
    have e : ∀ (l : List (Op K V)) (d d1 d2 : Dict K V) (x y z : List V), d.run grow dflt (l ++ [.ref h k]) = .ok (x, d1) →
        d1.handle h = some k := by
      intro l
      induction l with
      | nil =>
        intro d d1 d2 x y z hx
        simp only [List.nil_append, Dict.run, Dict.step, Res.bind_ok] at hx
        cases hx
        simp
      | cons o l ih =>
        intro d d1 d2 x y z hx
        rw [List.cons_append, Dict.run] at hx
        obtain ⟨⟨x1, d3⟩, hx1, hx2⟩ := Res.bind_eq_ok.1 hx
        obtain ⟨⟨y1, d4⟩, hx3, hx4⟩ := Res.bind_eq_ok.1 hx2
        cases hx4
        exact ih d3 _ d2 y1 y z hx3
    exact e pre _ d0 d0 _ [] [] h2
  obtain ⟨h7, h8⟩ := run_keeps grow dflt h ops hops h4
  have h9 : d.handle h = some k := by rw [h8 (by rw [h5.length, ← h3.cap]; exact hcap), h6]
  obtain ⟨r, v, h10, h11, h12⟩ := h5.live h k h9
  obtain ⟨h13, h14⟩ := h5.load r h11 k v h12
  refine ⟨⟨v, ?_, ?_⟩, fun w => ?_⟩
  · simp only [MapRefs.step, h10, h13, Res.bind_ok]
  · rw [FlatMap.at_eq, h5.vals, h14]
  · have hi : r.idx < m.map.length := (List.getElem?_eq_some_iff.1 h12).1
    refine ⟨{ m with map := m.map.modify r.idx fun kv => (kv.1, w) }, ?_, FlatMap.modify_eq_assign m.map h5.nodup dflt r.idx k v w h12⟩
    simp only [MapRefs.step, h10, MapRefs.store, if_pos (show m.slots.valid r = true ∧ r.idx < m.map.length from ⟨h11, hi⟩), Res.bind_ok]

/-- Touching two keys, one of which there is, where there is the other one or room for it, changes nothing but that. -/
theorem touch_two (grow : Nat → Nat → Nat) (dflt : V) (d : Dict K V) (k j : K) (hj : j ∈ d.order) (hk : k ∈ d.order ∨ d.order.length < d.room) (rf : Bool) :
    ¬ ((if rf then k else j) ∉ (d.touch grow dflt (if rf then j else k)).order ∧
        (d.touch grow dflt (if rf then j else k)).room ≤ (d.touch grow dflt (if rf then j else k)).order.length) ∧
      (d.touch grow dflt (if rf then j else k)).touch grow dflt (if rf then k else j) = d.touch grow dflt k := by
  have e1 : d.touch grow dflt j = d := by rw [Dict.touch, if_pos hj]
  cases rf with
  | true =>
    simp only [if_true, e1]
    refine ⟨?_, trivial⟩
    rintro ⟨c1, c2⟩
    rcases hk with hk | hk
    · exact c1 hk
    · omega
  | false =>
    simp only [Bool.false_eq_true, if_false]
    have e2 : j ∈ (d.touch grow dflt k).order := by
      unfold Dict.touch
      split
      · exact hj
      · split <;> simp [hj]
    exact ⟨fun c => c.1 e2, by rw [Dict.touch, if_pos e2]⟩

/-- C140. `map[ k ] = map[ j ]` does what it says if there are both keys, or `j` and room for `k`, whichever side is evaluated first. -/
theorem C140_assign (grow : Nat → Nat → Nat) (dflt : V) (pre : List (Op K V)) (rightFirst : Bool) (k j : K) (v : V) (as : List V) (m : MapRefs K V)
    (h0 : MapRefs.empty.run grow dflt pre = .ok (as, m)) (hj : m.map.at' j = .ok v) (hk : m.map.hasKey k ∨ m.map.length < m.slots.cap) :
    ∃ m', m.step grow dflt (.assignFrom rightFirst k j) = .ok (none, m') ∧ ∀ i, m'.map.at' i = (m.map.assign dflt k v).at' i := by
  obtain ⟨d, h2, h3⟩ := run_shows grow dflt Shows.empty h0
  have hv : d.value j = some v := by
    rw [FlatMap.at_eq, h3.vals] at hj
    split at hj <;> cases hj
    assumption
  have hjo : j ∈ d.order := by
    rw [← h3.keys]
    refine Decidable.byContradiction fun hc => ?_
    have := (FlatMap.val_none_iff j m.map).2 hc
    rw [h3.vals, hv] at this
    cases this
  have h4 := h3.step grow dflt (.assignFrom rightFirst k j)
  have hc : k ∈ d.order ∨ d.order.length < d.room := by
    rcases hk with hk | hk
    · refine .inl (Decidable.byContradiction fun hc => ?_)
      rw [FlatMap.hasKey_eq, (FlatMap.val_none_iff k m.map).2 (by rw [h3.keys]; exact hc)] at hk
      cases hk
    · right
      rw [h3.length, ← h3.cap]
      exact hk
  obtain ⟨e0, e1⟩ := touch_two grow dflt d k j hjo hc rightFirst
  have e2 : (d.touch grow dflt k).value j = some v := by
    unfold Dict.touch
    split
    · exact hv
    · rename_i hko
      have hne : j ≠ k := by rintro rfl; exact hko hjo
      split <;> simp [hne, hv]
  have e3 : ∀ i, ((d.touch grow dflt k).write k v).value i = if i = k then some v else d.value i := by
    intro i
    simp only [Dict.write]
    split
    · rfl
    · rename_i hik
      unfold Dict.touch
      split
      · rfl
      · split <;> simp [hik]
  simp only [Dict.step, if_neg e0, e1, e2] at h4
  cases h5 : m.step grow dflt (.assignFrom rightFirst k j) <;> rw [h5] at h4 <;> try exact h4.elim
  rename_i p
  obtain ⟨a, m'⟩ := p
  obtain ⟨h6, h7⟩ := h4
  refine ⟨m', by rw [show a = none from h6], fun i => ?_⟩
  rw [FlatMap.at_eq, FlatMap.at_eq, h7.vals, e3, FlatMap.assign_val, h3.vals]
  by_cases e : i = k
  · subst e; simp
  · rw [if_neg e, if_neg (Ne.symm e)]

/-- `map[ 0 ] = 0`, `map[ 1 ] = 1`, up to `n`. -/
def fill (n : Nat) : List (Op Nat Nat) := (List.range n).map fun i => .assign i i

theorem Dict.run_append_ok (grow : Nat → Nat → Nat) (dflt : V) (a b : List (Op K V)) {d d1 : Dict K V} {as : List V} (h : d.run grow dflt a = .ok (as, d1)) :
    d.run grow dflt (a ++ b) = (do let (bs, d2) ← d1.run grow dflt b; .ok (as ++ bs, d2)) := by
  induction a generalizing d as with
  | nil => cases h; simp only [List.nil_append]; cases d1.run grow dflt b <;> rfl
  | cons op a ih =>
    rw [Dict.run] at h
    obtain ⟨⟨x, d3⟩, h2, h3⟩ := Res.bind_eq_ok.1 h
    obtain ⟨⟨y, d4⟩, h4, h5⟩ := Res.bind_eq_ok.1 h3
    cases h5
    rw [List.cons_append, Dict.run, h2, Res.bind_ok]
    simp only [ih h4]
    cases d1.run grow dflt b <;> simp [List.append_assoc] <;> rfl

theorem fill_succ (n : Nat) : fill (n + 1) = fill n ++ [.assign n n] := by simp [fill, List.range_succ]

theorem fill_run (grow : Nat → Nat → Nat) (n : Nat) : ∃ d, Dict.empty.run grow 0 (fill n) = .ok ([], d) ∧ d.order = List.range n ∧ n ≤ d.room := by
  induction n with
  | zero => exact ⟨Dict.empty, rfl, rfl, Nat.zero_le _⟩
  | succ n ih =>
    obtain ⟨d, h1, h2, h3⟩ := ih
    have hn : n ∉ d.order := by rw [h2]; simp
    refine ⟨(d.touch grow 0 n).write n n, ?_, ?_, ?_⟩
    · rw [fill_succ, Dict.run_append_ok grow 0 _ _ h1]
      rfl
    · simp only [Dict.write, Dict.touch, if_neg hn, List.range_succ]
      split <;> simp [h2]
    · simp only [Dict.write, Dict.touch, if_neg hn]
      split
      · simp [h2]; omega
      · rename_i h4
        rw [h2, List.length_range] at h4
        simp only
        omega

theorem fill_room (grow : Nat → Nat → Nat) (n : Nat) (d : Dict Nat Nat) (h : Dict.empty.run grow 0 (fill n) = .ok ([], d)) (j : Nat) (hj : n + j ≤ d.room) :
    ∃ d', Dict.empty.run grow 0 (fill (n + j)) = .ok ([], d') ∧ d'.order = List.range (n + j) ∧ d'.room = d.room := by
  induction j with
  | zero =>
    obtain ⟨d1, h1, h2, h3⟩ := fill_run grow n
    rw [h1] at h
    cases h
    exact ⟨_, h1, h2, rfl⟩
  | succ j ih =>
    obtain ⟨d', h1, h2, h3⟩ := ih (by omega)
    have hn : n + j ∉ d'.order := by rw [h2]; simp
    have hr : ¬ d'.room ≤ d'.order.length := by rw [h3, h2, List.length_range]; omega
    refine ⟨(d'.touch grow 0 (n + j)).write (n + j) (n + j), ?_, ?_, ?_⟩
    · rw [← Nat.add_assoc, fill_succ, Dict.run_append_ok grow 0 _ _ h1]
      rfl
    · simp only [Dict.write, Dict.touch, if_neg hn, if_neg hr]
      rw [h2, ← Nat.add_assoc, List.range_succ]
    · simp only [Dict.write, Dict.touch, if_neg hn, if_neg hr]
      exact h3

/-- C140 fails for adding a key: however the library makes room, there are maps of any size for which `map[ new ] = map[ old ]` is undefined, if the right side is evaluated
first. -/
theorem C140_assign_refuted (grow : Nat → Nat → Nat) (N : Nat) :
    ∃ n, N ≤ n ∧ (∃ m, MapRefs.empty.run grow 0 (fill n) = .ok ([], m) ∧ m.map.at' 0 = .ok 0) ∧
      MapRefs.empty.run grow 0 (fill n ++ [.assignFrom true n 0]) = .ub := by
  obtain ⟨d, h1, h2, h3⟩ := fill_run grow (N + 1)
  obtain ⟨d', h4, h5, h6⟩ := fill_room grow (N + 1) d h1 (d.room - (N + 1)) (by omega)
  rw [show N + 1 + (d.room - (N + 1)) = d.room by omega] at h4 h5
  refine ⟨d.room, by omega, ?_, ?_⟩
  · have := Shows.empty.run grow 0 (fill d.room)
    rw [h4] at this
    cases h7 : MapRefs.empty.run grow 0 (fill d.room) <;> rw [h7] at this <;> try exact this.elim
    rename_i p
    obtain ⟨as, m⟩ := p
    obtain ⟨h8, h9⟩ := this
    refine ⟨m, by rw [show as = [] from h8], ?_⟩
    rw [FlatMap.at_eq, h9.vals]
    have hval : ∀ n (dn : Dict Nat Nat), Dict.empty.run grow 0 (fill (n + 1)) = .ok ([], dn) → dn.value 0 = some 0 := by
      intro n
      induction n with
      | zero =>
        intro dn hdn
        cases hdn
        simp [Dict.write]
      | succ n ih =>
        intro dn hdn
        obtain ⟨dp, p1, p2, p3⟩ := fill_run grow (n + 1)
        rw [fill_succ, Dict.run_append_ok grow 0 _ _ p1] at hdn
        cases hdn
        have := ih dp p1
        simp only [Dict.write, Dict.touch]
        rw [if_neg (by omega)]
        split
        · exact this
        · split <;> simp [this]
    obtain ⟨n, hn⟩ : ∃ n, d.room = n + 1 := ⟨d.room - 1, by omega⟩
    rw [hval n d' (by rw [← hn]; exact h4)]
  · have := Shows.empty.run grow 0 (fill d.room ++ [.assignFrom true d.room 0])
    have h0 : 0 ∈ d'.order := by rw [h5]; simp; omega
    have hn : d.room ∉ d'.order := by rw [h5]; simp
    rw [Dict.run_append_ok grow 0 _ _ h4] at this
    have e : d'.run grow 0 [.assignFrom true d.room 0] = .ub := by
      simp only [Dict.run, Dict.step]
      simp only [if_true]
      rw [show d'.touch grow 0 0 = d' by rw [Dict.touch, if_pos h0]]
      rw [if_pos ⟨hn, by rw [h6, h5]; simp⟩]
      rfl
    rw [e] at this
    cases h7 : MapRefs.empty.run grow 0 (fill d.room ++ [.assignFrom true d.room 0]) <;> rw [h7] at this <;> first | rfl | exact this.elim

/-- The room that GCC's library makes. -/
def doubling (cap n : Nat) : Nat := max (2 * cap) n

/-- A reference is used after another key has been added and the value changed; there was room for one more key. -/
example : (do
    let r ← MapRefs.empty.run doubling 0 [.assign 5 50, .assign 6 60, .assign 7 70, .ref 0 6, .assign 8 80, .load 0, .store 0 61, .assignFrom false 5 6, .ref 1 5, .load 1, .erase 8, .load 0]
    .ok r.1) = .ok [60, 61, 61] := by decide +kernel

/-- The hypotheses of `C140_stays` hold in this example. -/
example : ∃ as m0 bs m, MapRefs.empty.run doubling 0 ([.assign 5 50, .assign 6 60, .assign 7 70] ++ [.ref 0 6]) = .ok (as, m0) ∧
    m0.run doubling 0 [.assign 8 80, .load 0] = .ok (bs, m) ∧ m.map.length ≤ m0.slots.cap ∧ bs = [60] :=
  ⟨_, _, _, _, rfl, rfl, by decide, rfl⟩

/-- `map[ 6 ] = map[ 5 ]` where `5` is the only key. -/
example : (do
    let r ← MapRefs.empty.run doubling 0 [.assign 5 50, .assignFrom true 6 5]
    .ok r.1) = .ub := by decide +kernel

/-- A reference to a key that was added after the one that is erased. -/
example : (do
    let r ← MapRefs.empty.run doubling 0 [.assign 5 50, .assign 6 60, .ref 0 5, .ref 1 6, .erase 6, .load 0]
    .ok r.1) = .ok [50] ∧ (do
    let r ← MapRefs.empty.run doubling 0 [.assign 5 50, .assign 6 60, .ref 0 5, .ref 1 6, .erase 5, .load 1]
    .ok r.1) = .ub := by constructor <;> decide +kernel

end Flut
