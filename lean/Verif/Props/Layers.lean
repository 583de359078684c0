import Verif.Model.Layers
import Verif.Spec.Layers
import Verif.Props.Settings
import Verif.Props.PropNode

/-!
# Settings in several layers (C153)
-/

namespace Flut

open Spec PN

/-! ### Trees -/

/-- The value and children of the node at a path. -/
theorem nodeAt_cons (k : Str) (p : List Str) (t : PN) : nodeAt (k :: p) t = (firstChild k (kids t)).bind (nodeAt p) := by
  obtain ⟨a, v, cs⟩ := t
  rw [nodeAt, kids]
  cases firstChild k cs <;> rfl

theorem bind_clear {m n : Option PN} (h : m.map clear = n.map clear) (p : List Str) :
    (m.bind (nodeAt p)).map clear = (n.bind (nodeAt p)).map clear := by
  cases m with
  | none => cases n with
    | none => rfl
    | some n => cases h
  | some m => cases n with
    | none => cases h
    | some n =>
      simp only [Option.map_some, Option.some.injEq] at h
      rw [Option.bind_some, Option.bind_some, ← nodeAt_clear, ← nodeAt_clear, h]

theorem map_or {m n m' n' : Option PN} (h : m.map clear = m'.map clear) (h' : n.map clear = n'.map clear) :
    (m.or n).map clear = (m'.or n').map clear := by
  cases m <;> cases m' <;> simp_all

theorem firstSome_cons {α : Type} (x : Option α) (r : List (Option α)) : firstSome (x :: r) = x.or (firstSome r) := by
  cases x <;> rfl

/-- Without overwriting, each key has its child of the first tree that has one. -/
theorem mergeAll_keep (k : Str) (os : List PN) (t : PN) : (firstChild k (kids (mergeAll false os t))).map clear =
    (firstSome ((t :: os).map fun o => firstChild k (kids o))).map clear := by
  induction os generalizing t with
  | nil => simp [mergeAll, firstSome_cons, firstSome]
  | cons o os ih =>
    rw [mergeAll, ih (merge false o t)]
    have h := (sameOpt_iff _ _).1 ((C25_keep o t).2 k)
    simp only [List.map_cons, firstSome_cons]
    rw [← Option.or_assoc]
    exact map_or h rfl

theorem lastChild_eq_first {k : Str} {cs : List (Str × PN)} (h : (cs.map Prod.fst).Nodup) : lastChild k cs = firstChild k cs := by
  induction cs with
  | nil => rfl
  | cons x cs ih =>
    obtain ⟨k', n⟩ := x
    simp only [List.map_cons, List.nodup_cons] at h
    rw [lastChild, firstChild, ih h.2]
    by_cases hk : k' = k
    · subst hk
      cases hc : firstChild k' cs with
      | none => simp
      | some m =>
        exact absurd (List.mem_map.2 ⟨_, mem_firstChild hc, rfl⟩) h.1
    · rw [if_neg hk, if_neg hk]
      cases firstChild k cs <;> rfl

theorem firstSome_append {α : Type} (x y : List (Option α)) : firstSome (x ++ y) = (firstSome x).or (firstSome y) := by
  induction x with
  | nil => simp [firstSome]
  | cons a x ih => rw [List.cons_append, firstSome_cons, ih, firstSome_cons, Option.or_assoc]

/-- With overwriting, each key has its last child of the last tree that has one, or else the first child of the tree itself. -/
theorem mergeAll_overwrite (k : Str) (os : List PN) (t : PN) : (firstChild k (kids (mergeAll true os t))).map clear =
    ((firstSome (os.reverse.map fun o => lastChild k (kids o))).or (firstChild k (kids t))).map clear := by
  induction os generalizing t with
  | nil => simp [mergeAll, firstSome]
  | cons o os ih =>
    rw [mergeAll, ih (merge true o t)]
    have h := (sameOpt_iff _ _).1 (C25_overwrite o t k)
    rw [List.reverse_cons, List.map_append, firstSome_append, Option.or_assoc]
    refine map_or rfl ?_
    rw [h]
    simp [firstSome_cons, firstSome]

/-- Merging trees without overwriting: what is at a path is what is there in the first tree that has a child with the first key of the
path. -/
theorem C153_tree_keep (k : Str) (p : List Str) (os : List PN) (t : PN) : SameOpt (nodeAt (k :: p) (mergeAll false os t))
    ((firstSome ((t :: os).map fun o => firstChild k (kids o))).bind (nodeAt p)) := by
  rw [sameOpt_iff, nodeAt_cons]
  exact bind_clear (mergeAll_keep k os t) p

/-- Merging trees with overwriting: what is at a path is what is there in the last tree that has a child with the first key of the
path, under the last such child; of the tree that is merged into, the first one. -/
theorem C153_tree_overwrite (k : Str) (p : List Str) (os : List PN) (t : PN) : SameOpt (nodeAt (k :: p) (mergeAll true os t))
    (((firstSome (os.reverse.map fun o => lastChild k (kids o))).or (firstChild k (kids t))).bind (nodeAt p)) := by
  rw [sameOpt_iff, nodeAt_cons]
  exact bind_clear (mergeAll_overwrite k os t) p

/-! ### Settings -/

/-- Each setting is read as the layer that decides about its key has it, and nothing is found under a key for which this layer has
neither a setting nor a group, or that no layer decides about. -/
structure HasLayers (d : Byte) (layers : List (List (Str × Setting))) (r : PN) : Prop where
  found : ∀ key s ws, Decides d key layers ws → lastSetting d (segments d key) ws = some s → ReadsAs d key r s
  missing : ∀ {α : Type} (cast : PN → Res α) key, (∀ ws, Decides d key layers ws → ∀ w ∈ ws, ¬ segments d key <+: segments d w.1) →
    getDelimited cast d key r = .throws .flutError

/-- Reading depends on what is at the path only. -/
theorem get_same {α : Type} (cast : PN → Res α) {d : Byte} {key : Str} {r r' : PN}
    (h : (nodeAt (segments d key) r).map clear = (nodeAt (segments d key) r').map clear) :
    (∀ x u, getDelimited cast d key r = .ok (x, u) → ∃ u', getDelimited cast d key r' = .ok (x, u')) ∧
    (getDelimited cast d key r = .throws .flutError → nodeAt (segments d key) r = none → getDelimited cast d key r' = .throws .flutError) := by
  constructor
  · intro x u hx
    rcases C21_get_delimited cast d key r with ⟨h1, h2⟩ | ⟨c, t, h1, -, h3⟩
    · rw [h2] at hx; cases hx
    · rcases C21_get_delimited cast d key r' with ⟨g1, -⟩ | ⟨c', t', g1, -, g3⟩
      · rw [h1, g1] at h; cases h
      · rw [h1, g1] at h
        simp only [Option.map_some, Option.some.injEq] at h
        rw [h3, Res.bind_eq_ok] at hx
        obtain ⟨y, hy, hx⟩ := hx
        cases hx
        exact ⟨t', by rw [g3, ← h, hy]; rfl⟩
  · intro _ hn
    rcases C21_get_delimited cast d key r' with ⟨-, g⟩ | ⟨c', t', g1, -, g3⟩
    · exact g
    · rw [hn, g1] at h; cases h

theorem reads_same {d : Byte} {key : Str} {r r' : PN} {s : Setting}
    (h : (nodeAt (segments d key) r).map clear = (nodeAt (segments d key) r').map clear) (hs : ReadsAs d key r s) : ReadsAs d key r' s := by
  cases s with
  | int x => obtain ⟨u, hu⟩ := hs; exact (get_same _ h).1 _ _ hu
  | size x => obtain ⟨u, hu⟩ := hs; exact (get_same _ h).1 _ _ hu
  | flag x => obtain ⟨u, hu⟩ := hs; exact (get_same _ h).1 _ _ hu
  | real f x =>
    obtain ⟨y, u, hu, hc⟩ := hs
    obtain ⟨u', hu'⟩ := (get_same _ h).1 _ _ hu
    exact ⟨y, u', hu', hc⟩
  | text x => obtain ⟨u, hu⟩ := hs; exact (get_same _ h).1 _ _ hu

theorem reads_node {d : Byte} {key : Str} {r : PN} {s : Setting} (hs : ReadsAs d key r s) : nodeAt (segments d key) r ≠ none := by
  intro hn
  have none' : ∀ {α : Type} (cast : PN → Res α) x, getDelimited cast d key r ≠ .ok x := by
    intro α cast x hx
    rcases C21_get_delimited cast d key r with ⟨h1, h2⟩ | ⟨c, t, h1, -⟩
    · rw [h2] at hx; cases hx
    · rw [hn] at h1; cases h1
  cases s with
  | int x => obtain ⟨u, hu⟩ := hs; exact none' _ _ hu
  | size x => obtain ⟨u, hu⟩ := hs; exact none' _ _ hu
  | flag x => obtain ⟨u, hu⟩ := hs; exact none' _ _ hu
  | real f x => obtain ⟨y, u, hu, -⟩ := hs; exact none' _ _ hu
  | text x => obtain ⟨u, hu⟩ := hs; exact none' _ _ hu

theorem missing_node {d : Byte} {ws : List (Str × Setting)} {r : PN} (h : HasSettings d ws r) (key : Str)
    (hm : ∀ w ∈ ws, ¬ segments d key <+: segments d w.1) : nodeAt (segments d key) r = none := by
  have := h.missing (fun _ => .ok ()) key hm
  rcases C21_get_delimited (fun _ => .ok ()) d key r with ⟨h1, -⟩ | ⟨c, t, -, -, h3⟩
  · exact h1
  · rw [h3] at this; cases this

theorem lastSetting_some {d : Byte} {ws : List (Str × Setting)} {w : Str × Setting} (hw : w ∈ ws) :
    ∃ s, lastSetting d (segments d w.1) ws = some s := by
  induction ws with
  | nil => simp at hw
  | cons x ws ih =>
    obtain ⟨k, v⟩ := x
    rw [lastSetting]
    cases h : lastSetting d (segments d w.1) ws with
    | some s => exact ⟨s, rfl⟩
    | none =>
      rcases List.mem_cons.1 hw with rfl | hw
      · exact ⟨v, by simp⟩
      · obtain ⟨s, hs⟩ := ih hw
        rw [h] at hs; cases hs

theorem segments_single {d : Byte} {k : Str} (h : d ∉ k) : segments d k = [k] := by
  refine segments_none ?_
  rw [findFirst_eq_none]
  intro c hc
  simp only [beq_eq_false_iff_ne]
  rintro rfl
  exact h hc

/-- A tree has a child with the first key of a path exactly if one of its settings shares it. -/
theorem shares_child {d : Byte} {ws : List (Str × Setting)} {r : PN} (h : HasSettings d ws r) (key k : Str) (p : List Str)
    (hk : segments d key = k :: p) : Shares d key ws ↔ firstChild k (kids r) ≠ none := by
  constructor
  · rintro ⟨w, hw, hh⟩ hn
    obtain ⟨s, hs⟩ := lastSetting_some (d := d) hw
    refine reads_node (h.found w.1 s hs) ?_
    rw [hk] at hh
    obtain ⟨k', q, hq⟩ := List.exists_cons_of_ne_nil (segments_ne_nil d w.1)
    rw [hq] at hh ⊢
    simp only [List.head?_cons, Option.some.injEq] at hh
    subst hh
    rw [nodeAt_cons, hn]; rfl
  · intro hc
    by_contra hs
    have hd : d ∉ k := (C21_segments d key).1 k (by rw [hk]; simp)
    have hm := missing_node h k (by
      rw [segments_single hd]
      rintro w hw ⟨q, hq⟩
      exact hs ⟨w, hw, by rw [← hq, hk]; rfl⟩)
    rw [segments_single hd, nodeAt_cons] at hm
    cases hf : firstChild k (kids r) with
    | none => exact hc hf
    | some c => rw [hf] at hm; cases hm

/-- A tree in which each path leads to what the first of the trees with its first key has there, has the settings in layers. -/
theorem layers_of {d : Byte} (ls : List (List (Str × Setting) × PN)) (h : ∀ l ∈ ls, HasSettings d l.1 l.2) (r : PN)
    (hr : ∀ k p, (nodeAt (k :: p) r).map clear = ((firstSome (ls.map fun l => firstChild k (kids l.2))).bind (nodeAt p)).map clear) :
    HasLayers d (ls.map Prod.fst) r := by
  have yes : ∀ (ls : List (List (Str × Setting) × PN)), (∀ l ∈ ls, HasSettings d l.1 l.2) → ∀ key k p ws, segments d key = k :: p →
      Decides d key (ls.map Prod.fst) ws →
      ∃ l ∈ ls, l.1 = ws ∧ (firstSome (ls.map fun l => firstChild k (kids l.2))).bind (nodeAt p) = nodeAt (k :: p) l.2 := by
    intro ls
    induction ls with
    | nil => intro _ key k p ws _ hd; cases hd
    | cons l ls ih =>
      intro h key k p ws hk hd
      have hsh := shares_child (h l (by simp)) key k p hk
      rw [List.map_cons] at hd
      cases hd with
      | here hs =>
        refine ⟨l, by simp, rfl, ?_⟩
        have := hsh.1 hs
        rw [List.map_cons, firstSome_cons, nodeAt_cons]
        cases hc : firstChild k (kids l.2) with
        | none => exact absurd hc this
        | some c => rfl
      | later hs hd =>
        obtain ⟨l', h1, h2, h3⟩ := ih (fun l hl => h l (by simp [hl])) key k p ws hk hd
        refine ⟨l', by simp [h1], h2, ?_⟩
        rw [List.map_cons, firstSome_cons]
        have : firstChild k (kids l.2) = none := by
          by_contra hc
          exact hs (hsh.2 hc)
        rw [this, Option.none_or, h3]
  have no : ∀ (ls : List (List (Str × Setting) × PN)), (∀ l ∈ ls, HasSettings d l.1 l.2) → ∀ key k p, segments d key = k :: p →
      (∀ ws, ¬ Decides d key (ls.map Prod.fst) ws) → firstSome (ls.map fun l => firstChild k (kids l.2)) = none := by
    intro ls
    induction ls with
    | nil => intros; rfl
    | cons l ls ih =>
      intro h key k p hk hd
      have hsh := shares_child (h l (by simp)) key k p hk
      have hs : ¬ Shares d key l.1 := fun hs => hd _ (.here hs)
      rw [List.map_cons, firstSome_cons, ih (fun l hl => h l (by simp [hl])) key k p hk (fun ws hw => hd ws (.later hs hw))]
      cases hc : firstChild k (kids l.2) with
      | none => rfl
      | some c => exact absurd (hsh.2 (by rw [hc]; simp)) hs
  constructor
  · intro key s ws hd hl
    obtain ⟨k, p, hk⟩ := List.exists_cons_of_ne_nil (segments_ne_nil d key)
    obtain ⟨l, h1, rfl, h3⟩ := yes ls h key k p ws hk hd
    refine reads_same (r := l.2) ?_ ((h l h1).found key s hl)
    rw [hk, hr, h3]
  · intro α cast key hm
    obtain ⟨k, p, hk⟩ := List.exists_cons_of_ne_nil (segments_ne_nil d key)
    have hnone : nodeAt (segments d key) r = none := by
      have e := hr k p
      by_cases hd : ∃ ws, Decides d key (ls.map Prod.fst) ws
      · obtain ⟨ws, hd⟩ := hd
        obtain ⟨l, h1, rfl, h3⟩ := yes ls h key k p ws hk hd
        have := missing_node (h l h1) key (hm _ hd)
        rw [hk] at this ⊢
        rw [h3, this] at e
        cases hn : nodeAt (k :: p) r with
        | none => rfl
        | some c => rw [hn] at e; cases e
      · rw [no ls h key k p hk (fun ws hw => hd ⟨ws, hw⟩)] at e
        rw [hk]
        cases hn : nodeAt (k :: p) r with
        | none => rfl
        | some c => rw [hn] at e; cases e
    rcases C21_get_delimited cast d key r with ⟨-, g⟩ | ⟨c', t', g1, -, -⟩
    · exact g
    · rw [hnone] at g1; cases g1

/-- Settings of several trees, wherever they come from, merged in the order of their importance: those of the first tree that has the
group count. -/
theorem C153_keep (d : Byte) (l : List (Str × Setting) × PN) (ls : List (List (Str × Setting) × PN))
    (h : ∀ x ∈ l :: ls, HasSettings d x.1 x.2) :
    HasLayers d ((l :: ls).map Prod.fst) (mergeAll false (ls.map Prod.snd) l.2) := by
  refine layers_of (l :: ls) h _ ?_
  intro k p
  have := (sameOpt_iff _ _).1 (C153_tree_keep k p (ls.map Prod.snd) l.2)
  rw [this]
  simp [List.map_map, Function.comp_def]

/-- The other way round, each tree overwriting those before: the same, if no tree that overwrites has a key twice. -/
theorem C153_overwrite (d : Byte) (l : List (Str × Setting) × PN) (ls : List (List (Str × Setting) × PN))
    (h : ∀ x ∈ l :: ls, HasSettings d x.1 x.2) (hd : ∀ x ∈ ls, ((kids x.2).map Prod.fst).Nodup) :
    HasLayers d ((l :: ls).reverse.map Prod.fst) (mergeAll true (ls.map Prod.snd) l.2) := by
  refine layers_of (l :: ls).reverse (fun x hx => h x (List.mem_reverse.1 hx)) _ ?_
  intro k p
  have := (sameOpt_iff _ _).1 (C153_tree_overwrite k p (ls.map Prod.snd) l.2)
  rw [this, List.reverse_cons, List.map_append, firstSome_append]
  have e : ((ls.map Prod.snd).reverse.map fun o => lastChild k (kids o)) = ls.reverse.map fun l => firstChild k (kids l.2) := by
    rw [← List.map_reverse, List.map_map]
    refine List.map_congr_left ?_
    intro x hx
    exact lastChild_eq_first (hd x (List.mem_reverse.1 hx))
  rw [e]
  simp [firstSome_cons, firstSome]

/-- Both for trees that a program writes, and for what it loads from files if they have the same content. -/
theorem C153_written (d : Byte) (ws : List (Str × Setting)) (wss : List (List (Str × Setting))) (rs : List PN) (r : PN)
    (hf : ∀ ws' ∈ ws :: wss, ∀ w ∈ ws', w.2.Fits) (hg : ∀ ws' ∈ ws :: wss, NoGroupIsValue d ws')
    (h : List.Forall₂ (fun ws' r' => ∃ t, writeSettings d ws' nil = .ok t ∧ SameTree r' t) (ws :: wss) (r :: rs)) :
    HasLayers d (ws :: wss) (mergeAll false rs r) ∧ HasLayers d (ws :: wss).reverse (mergeAll true rs r) := by
  have key : ∀ (wss : List (List (Str × Setting))) (rs : List PN), (∀ ws' ∈ wss, ∀ w ∈ ws', w.2.Fits) → (∀ ws' ∈ wss, NoGroupIsValue d ws') →
      List.Forall₂ (fun ws' r' => ∃ t, writeSettings d ws' nil = .ok t ∧ SameTree r' t) wss rs →
      (∀ x ∈ wss.zip rs, HasSettings d x.1 x.2 ∧ ((kids x.2).map Prod.fst).Nodup) ∧ (wss.zip rs).map Prod.fst = wss ∧
        (wss.zip rs).map Prod.snd = rs := by
    intro wss rs hf hg h
    induction h with
    | nil => exact ⟨by simp, rfl, rfl⟩
    | cons h1 h2 ih =>
      rename_i ws' r' wss' rs'
      obtain ⟨i1, i2, i3⟩ := ih (fun x hx => hf x (by simp [hx])) (fun x hx => hg x (by simp [hx]))
      obtain ⟨t, t1, t2⟩ := h1
      refine ⟨?_, by simp [i2], by simp [i3]⟩
      intro x hx
      rw [List.zip_cons_cons, List.mem_cons] at hx
      rcases hx with rfl | hx
      · obtain ⟨t', w1, w2⟩ := writeSettings_nil d ws' (hg ws' (by simp))
        rw [t1] at w1
        cases w1
        refine ⟨written_settings (hf ws' (by simp)) w2 t2, ?_⟩
        cases t2 with
        | mk e _ =>
          simp only [kids]
          rw [e]
          cases w2.distinct with
          | mk hd _ => exact hd
      · exact i1 x hx
  obtain ⟨k1, k2, k3⟩ := key _ _ hf hg h
  rw [List.zip_cons_cons] at k1 k2 k3
  simp only [List.map_cons, List.cons.injEq, true_and] at k2 k3
  have a := C153_keep d (ws, r) (wss.zip rs) (fun x hx => (k1 x hx).1)
  have b := C153_overwrite d (ws, r) (wss.zip rs) (fun x hx => (k1 x hx).1) (fun x hx => (k1 x (by simp [hx])).2)
  rw [List.map_reverse, List.map_cons, k2, k3] at b
  rw [List.map_cons, k2, k3] at a
  exact ⟨a, b⟩

/-- Merging does not go into groups: a setting that only the less important layer has is lost if the more important one has any other
setting of the same group. -/
theorem C153_nested_refuted {α : Type} (cast : PN → Res α) (d : Byte) (user defaults : List (Str × Setting)) (u t : PN)
    (hu : HasSettings d user u) (ht : HasSettings d defaults t) (hn : ((kids u).map Prod.fst).Nodup) (key : Str)
    (h1 : Shares d key user) (h2 : ∀ w ∈ user, ¬ segments d key <+: segments d w.1) :
    getDelimited cast d key (merge false t u) = .throws .flutError ∧ getDelimited cast d key (merge true u t) = .throws .flutError := by
  constructor
  · refine (C153_keep d (user, u) [(defaults, t)] (by simp [hu, ht])).missing cast key ?_
    intro ws hd
    cases hd with
    | here => exact h2
    | later h => exact absurd h1 h
  · refine (C153_overwrite d (defaults, t) [(user, u)] (by simp [hu, ht]) (by simpa using hn)).missing cast key ?_
    intro ws hd
    cases hd with
    | here => exact h2
    | later h => exact absurd h1 h

/-- A tree with a key twice is read differently after it was merged into an empty tree with overwriting. -/
theorem C153_duplicate_refuted : ∃ (t : PN) (a b : PN), parseProp b!"a = 1\na = 2\n" = .ok t ∧
    getDelimited (castStr .ok) c!"." b!"a" t = .ok (b!"1", a) ∧
    getDelimited (castStr .ok) c!"." b!"a" (merge true t nil) = .ok (b!"2", b) := by
  refine ⟨_, _, _, rfl, rfl, rfl⟩

/-- Settings of a user, in front of the settings above. -/
def userSettings : List (Str × Setting) := [(b!"out.path", .text b!"y"), (b!"name", .text b!"me")]

theorem userSettings_fit : ∀ w ∈ userSettings, w.2.Fits := by
  intro w hw
  simp only [userSettings, List.mem_cons, List.not_mem_nil, or_false] at hw
  rcases hw with rfl | rfl <;> trivial

/-- All hypotheses hold for them; the user's value for one key and the default for another are read. -/
example : ∃ u t, HasLayers c!"." [userSettings, someSettings] (mergeAll false [t] u) ∧
    ReadsAs c!"." b!"out.path" (mergeAll false [t] u) (.text b!"y") ∧ ReadsAs c!"." b!"sim.steps" (mergeAll false [t] u) (.int 7) := by
  obtain ⟨u, u1, -⟩ := C117_memory c!"." userSettings userSettings_fit (by unfold NoGroupIsValue; decide +kernel)
  obtain ⟨t, t1, -⟩ := C117_memory c!"." someSettings someSettings_fit (by unfold NoGroupIsValue; decide +kernel)
  have h := (C153_written c!"." userSettings [someSettings] [t] u
    (by simp only [List.mem_cons, List.not_mem_nil, or_false]; rintro _ (rfl | rfl); exact userSettings_fit; exact someSettings_fit)
    (by simp only [List.mem_cons, List.not_mem_nil, or_false]
        rintro _ (rfl | rfl) <;> unfold NoGroupIsValue <;> decide +kernel)
    (.cons ⟨u, u1, sameTree_refl u⟩ (.cons ⟨t, t1, sameTree_refl t⟩ .nil))).1
  refine ⟨u, t, h, h.found _ _ userSettings (.here ?_) rfl, h.found _ _ someSettings (.later ?_ (.here ?_)) rfl⟩ <;>
    unfold Shares <;> decide +kernel

/-- The user sets the path of the output only; a default in the same group would be lost. -/
example : Shares c!"." b!"out.format" userSettings ∧ ∀ w ∈ userSettings, ¬ segments c!"." b!"out.format" <+: segments c!"." w.1 := by
  unfold Shares; decide +kernel

end Flut
