import Verif.Spec.Settings
import Verif.Proofs.PropApi
import Verif.Props.PropNode

/-! # Lemmas: sequences of `set_delimited` -/

namespace Flut

open Spec

namespace PN

/-- No two children of a node have the same key. -/
inductive Distinct : PN → Prop
  | mk {a v cs} : (cs.map Prod.fst).Nodup → (∀ kn ∈ cs, Distinct kn.2) → Distinct (.mk a v cs)

theorem val_clear (n : PN) : n.clear.value = n.value := by obtain ⟨a, v, cs⟩ := n; rfl

theorem distinct_nil : Distinct nil := .mk List.nodup_nil (by simp)

theorem distinct_access {n : PN} (h : Distinct n) : Distinct n.access := by
  cases h with
  | mk h1 h2 => exact .mk h1 h2

theorem nodeAt_append (p q : List Str) (t : PN) : nodeAt (p ++ q) t = (nodeAt p t).bind (nodeAt q) := by
  induction p generalizing t with
  | nil => rfl
  | cons k p ih =>
    obtain ⟨a, v, cs⟩ := t
    simp only [List.cons_append, nodeAt]
    cases firstChild k cs with
    | none => rfl
    | some c => exact ih c

theorem distinct_replace {a : Bool} {val : Str} {pre post : List (Str × PN)} {k : Str} {n m : PN}
    (h : Distinct (.mk a val (pre ++ (k, n) :: post))) (hm : Distinct m) : Distinct (.mk true val (pre ++ (k, m) :: post)) := by
  cases h with
  | mk h1 h2 =>
    refine .mk (by simpa using h1) ?_
    intro kn hkn
    rcases List.mem_append.1 hkn with hkn | hkn
    · exact h2 kn (by simp [hkn])
    · rcases List.mem_cons.1 hkn with rfl | hkn
      · exact hm
      · exact h2 kn (by simp [hkn])

theorem distinct_snoc {a : Bool} {val : Str} {cs : List (Str × PN)} {k : Str} {m : PN}
    (h : Distinct (.mk a val cs)) (hk : k ∉ cs.map Prod.fst) (hm : Distinct m) : Distinct (.mk true val (cs ++ [(k, m)])) := by
  cases h with
  | mk h1 h2 =>
    refine .mk ?_ ?_
    · rw [List.map_append, List.nodup_append]
      refine ⟨h1, by simp, ?_⟩
      intro x hx y hy
      simp at hy
      subst hy
      rintro rfl
      exact hk hx
    · intro kn hkn
      rcases List.mem_append.1 hkn with hkn | hkn
      · exact h2 kn hkn
      · simp at hkn
        subst hkn
        exact hm

/-- `set_delimited` of a text keeps keys distinct and the values of the nodes on the way; new ones have no value. -/
theorem setDelimitedN_more (d : Byte) (s : Str) (n : Nat) : ∀ (key : Str) (t : PN), key.length < n → Distinct t →
    ∃ t', setDelimitedN n d key (leaf s) t = .ok t' ∧ Distinct t' ∧
      ∀ qs, qs <+: segments d key → qs ≠ segments d key → ∃ m, nodeAt qs t' = some m ∧ m.value = ((nodeAt qs t).map value).getD [] := by
  induction n with
  | zero => intro key t h; omega
  | succ n ih =>
    intro key t hn hd
    obtain ⟨a, val, cs⟩ := t
    cases hf : findFirst (· == d) key with
    | none =>
      rw [segments_none hf]
      refine ⟨set key (leaf s) (.mk a val cs), by simp [setDelimitedN, hf], ?_⟩
      have hq : ∀ qs : List Str, qs <+: [key] → qs ≠ [key] → qs = [] := by
        intro qs h1 h2
        cases qs with
        | nil => rfl
        | cons q qs =>
          rw [List.cons_prefix_cons, List.prefix_nil] at h1
          exact absurd (by rw [h1.1, h1.2]) h2
      rcases set_cases key (leaf s) a val cs with ⟨h1, h2⟩ | ⟨pre, n0, post, rfl, h1, h2⟩
      · rw [h2]
        refine ⟨distinct_snoc hd h1 (.mk List.nodup_nil (by simp [clearAll])), fun qs g1 g2 => ?_⟩
        rw [hq qs g1 g2]
        exact ⟨_, rfl, rfl⟩
      · rw [h2]
        refine ⟨distinct_replace hd ?_, fun qs g1 g2 => ?_⟩
        · cases n0
          exact .mk List.nodup_nil (by simp [clearAll])
        · rw [hq qs g1 g2]
          exact ⟨_, rfl, rfl⟩
    | some p =>
      obtain ⟨hp, hs⟩ := segments_some hf
      rw [hs]
      have e1 : substr key 0 (some p) = .ok (key.take p) := by simp [substr]
      have e2 : midStr key (p + 1) = .ok (key.drop (p + 1)) := by
        simp only [midStr, substr]; rw [if_neg (by omega)]
      have hlen : (key.drop (p + 1)).length < n := by simp; omega
      rcases getOrAdd_cases (key.take p) a val cs with ⟨h1, h2⟩ | ⟨pre, n0, post, rfl, h1, h2⟩
      · obtain ⟨c, g1, g2, g3⟩ := ih (key.drop (p + 1)) nil hlen distinct_nil
        refine ⟨.mk true val (cs ++ [(key.take p, c)]), ?_, distinct_snoc hd h1 g2, ?_⟩
        · simp only [setDelimitedN, hf, e1, e2, Res.bind_ok, h2]
          rw [getElem_at]
          simp only [g1, Res.bind_ok]
          rw [modifyAt_at]
        · intro qs hq1 hq2
          cases qs with
          | nil => exact ⟨_, rfl, rfl⟩
          | cons q qs =>
            obtain ⟨rfl, hq⟩ := List.cons_prefix_cons.1 hq1
            obtain ⟨m, m1, m2⟩ := g3 qs hq (by rintro rfl; exact hq2 rfl)
            refine ⟨m, by simp only [nodeAt, firstChild_at h1, m1], ?_⟩
            simp only [m2, nodeAt, firstChild_none.2 h1]
            cases qs <;> rfl
      · cases hd with
        | mk d1 d2 =>
        obtain ⟨c, g1, g2, g3⟩ := ih (key.drop (p + 1)) n0.access hlen (distinct_access (d2 (key.take p, n0) (by simp)))
        refine ⟨.mk true val (pre ++ (key.take p, c) :: post), ?_, distinct_replace (.mk d1 d2 : Distinct (.mk a val _)) g2, ?_⟩
        · simp only [setDelimitedN, hf, e1, e2, Res.bind_ok, h2]
          rw [getElem_at]
          simp only [g1, Res.bind_ok]
          rw [modifyAt_at]
        · intro qs hq1 hq2
          cases qs with
          | nil => exact ⟨_, rfl, rfl⟩
          | cons q qs =>
            obtain ⟨rfl, hq⟩ := List.cons_prefix_cons.1 hq1
            obtain ⟨m, m1, m2⟩ := g3 qs hq (by rintro rfl; exact hq2 rfl)
            refine ⟨m, by simp only [nodeAt, firstChild_at h1, m1], ?_⟩
            simp only [m2, nodeAt, firstChild_at h1]
            have := nodeAt_access qs n0
            cases h3 : nodeAt qs n0.access <;> cases h4 : nodeAt qs n0 <;> rw [h3, h4] at this <;> simp at this
            · rw [Option.map_some, Option.map_some, Option.getD_some, Option.getD_some, ← val_clear, this, val_clear]

theorem firstChild_mem {cs : List (Str × PN)} (h : (cs.map Prod.fst).Nodup) {k : Str} {n : PN} (hm : (k, n) ∈ cs) :
    firstChild k cs = some n := by
  obtain ⟨pre, post, rfl⟩ := List.append_of_mem hm
  apply firstChild_at
  rw [List.map_append, List.nodup_append] at h
  intro hc
  exact h.2.2 k hc k (by simp) rfl

theorem mem_firstChild {cs : List (Str × PN)} {k : Str} {n : PN} (h : firstChild k cs = some n) : (k, n) ∈ cs := by
  induction cs with
  | nil => simp [firstChild] at h
  | cons kn cs ih =>
    obtain ⟨k', n'⟩ := kn
    simp only [firstChild] at h
    split at h
    · rename_i hk
      simp at h
      simp [hk, h]
    · exact List.mem_cons_of_mem _ (ih h)

theorem nodeAt_leaf {n : PN} (h : kids n = []) {q : List Str} (hq : q ≠ []) : nodeAt q n = none := by
  obtain ⟨a, v, cs⟩ := n
  simp only [kids] at h
  subst h
  cases q with
  | nil => exact absurd rfl hq
  | cons k q => rfl

theorem kids_clear (n : PN) : kids n.clear = [] ↔ kids n = [] := by
  obtain ⟨a, v, cs⟩ := n
  cases cs with
  | nil => simp [kids, clear, clearAll]
  | cons kn cs => obtain ⟨k, m⟩ := kn; simp [kids, clear, clearAll]

/-- What a tree looks like after texts have been set at the paths `W`, where the last text at path `p` is `last p`. -/
structure Written (W : List (List Str)) (last : List Str → Option Str) (t : PN) : Prop where
  root : t.value = []
  distinct : Distinct t
  on_path : ∀ p n, p ≠ [] → nodeAt p t = some n → ∃ w ∈ W, p <+: w
  has_value : ∀ p n, p ≠ [] → nodeAt p t = some n → n.value ≠ [] → p ∈ W
  no_kids : ∀ p n, p ≠ [] → nodeAt p t = some n → kids n = [] → p ∈ W
  value : ∀ p ∈ W, ∃ s, last p = some s ∧ (nodeAt p t).map clear = some (leaf s)

theorem written_nil : Written [] (fun _ => none) nil := by
  have h : ∀ p n, p ≠ [] → nodeAt p nil = some n → False := by
    intro p n hp h
    rw [nodeAt_nil hp] at h
    cases h
  exact ⟨rfl, distinct_nil, fun p n h1 h2 => (h p n h1 h2).elim, fun p n h1 h2 => (h p n h1 h2).elim,
    fun p n h1 h2 => (h p n h1 h2).elim, by simp⟩

theorem written_set {W : List (List Str)} {last : List Str → Option Str} {t : PN} (h : Written W last t) (d : Byte) (key s : Str)
    (hp : ∀ w ∈ W, (w <+: segments d key ∨ segments d key <+: w) → w = segments d key) :
    ∃ t', setDelimited d key (leaf s) t = .ok t' ∧
      Written (W ++ [segments d key]) (fun p => if p = segments d key then some s else last p) t' := by
  obtain ⟨t', h1, h2, h3, h4⟩ := setDelimitedN_spec d (leaf s) (key.length + 1) key t (by omega)
  obtain ⟨t2, g1, g2, g3⟩ := setDelimitedN_more d s (key.length + 1) key t (by omega) h.distinct
  have e : t2 = t' := by rw [h1] at g1; cases g1; rfl
  subst e
  have hleaf : (leaf s).clear = leaf s := rfl
  rw [hleaf] at h3
  have below : ∀ p n, p ≠ [] → nodeAt p t2 = some n → segments d key <+: p → p ≠ segments d key → False := by
    rintro p n - hn ⟨q, rfl⟩ hne
    rw [nodeAt_append] at hn
    cases hs : nodeAt (segments d key) t2 with
    | none => rw [hs] at hn; cases hn
    | some m =>
      rw [hs] at hn h3
      simp only [Option.map_some, Option.some.injEq] at h3
      have hk : kids m = [] := (kids_clear m).1 (by rw [h3]; rfl)
      have hq : q ≠ [] := by rintro rfl; simp at hne
      rw [Option.bind_some, nodeAt_leaf hk hq] at hn
      cases hn
  have cases_ : ∀ p n, p ≠ [] → nodeAt p t2 = some n → p = segments d key ∨ (p <+: segments d key ∧ p ≠ segments d key) ∨
      ((nodeAt p t).map clear = some n.clear) := by
    intro p n hp0 hn
    by_cases he : p = segments d key
    · exact .inl he
    · by_cases h5 : p <+: segments d key
      · exact .inr (.inl ⟨h5, he⟩)
      · by_cases h6 : segments d key <+: p
        · exact (below p n hp0 hn h6 he).elim
        · right; right
          rw [← h4 p h5 h6, hn]
          rfl
  refine ⟨t2, h1, ⟨h2.trans h.root, g2, ?_, ?_, ?_, ?_⟩⟩
  · intro p n hp0 hn
    rcases cases_ p n hp0 hn with rfl | ⟨h5, -⟩ | h5
    · exact ⟨_, by simp, List.prefix_rfl⟩
    · exact ⟨_, by simp, h5⟩
    · cases hs : nodeAt p t with
      | none => rw [hs] at h5; cases h5
      | some m =>
        obtain ⟨w, hw, hpw⟩ := h.on_path p m hp0 hs
        exact ⟨w, by simp [hw], hpw⟩
  · intro p n hp0 hn hv
    rcases cases_ p n hp0 hn with rfl | ⟨h5, h6⟩ | h5
    · simp
    · exfalso
      obtain ⟨m, m1, m2⟩ := g3 p h5 h6
      rw [hn] at m1
      cases m1
      cases hs : nodeAt p t with
      | none => rw [hs] at m2; exact hv m2
      | some m =>
        rw [hs] at m2
        have : p ∈ W := h.has_value p m hp0 hs (by rw [m2] at hv; exact hv)
        exact h6 (hp p this (.inl h5))
    · cases hs : nodeAt p t with
      | none => rw [hs] at h5; cases h5
      | some m =>
        rw [hs] at h5
        simp only [Option.map_some, Option.some.injEq] at h5
        have : p ∈ W := h.has_value p m hp0 hs (by rw [← val_clear, h5, val_clear]; exact hv)
        simp [this]
  · intro p n hp0 hn hk
    rcases cases_ p n hp0 hn with rfl | ⟨⟨q, hq⟩, h6⟩ | h5
    · simp
    · exfalso
      rw [← hq, nodeAt_append, hn, Option.bind_some, nodeAt_leaf hk (by rintro rfl; simp at hq; exact h6 hq)] at h3
      cases h3
    · cases hs : nodeAt p t with
      | none => rw [hs] at h5; cases h5
      | some m =>
        rw [hs] at h5
        simp only [Option.map_some, Option.some.injEq] at h5
        have : p ∈ W := h.no_kids p m hp0 hs ((kids_clear m).1 (by rw [h5]; exact (kids_clear n).2 hk))
        simp [this]
  · intro p hpW
    by_cases he : p = segments d key
    · subst he
      exact ⟨s, by simp, h3⟩
    · have hpW : p ∈ W := by
        rcases List.mem_append.1 hpW with h | h
        · exact h
        · simp at h; exact absurd h he
      rw [if_neg he, h4 p (fun h5 => he (hp p hpW (.inl h5))) (fun h5 => he (hp p hpW (.inr h5)))]
      exact h.value p hpW

theorem distinct_nodeAt {t : PN} (h : Distinct t) {p : List Str} {n : PN} (hn : nodeAt p t = some n) : Distinct n := by
  induction p generalizing t with
  | nil => cases hn; exact h
  | cons k p ih =>
    cases h with
    | mk h1 h2 =>
      rename_i a v cs
      rw [nodeAt] at hn
      cases hc : firstChild k cs with
      | none => rw [hc] at hn; cases hn
      | some c => rw [hc] at hn; exact ih (h2 _ (mem_firstChild hc)) hn

theorem nodeAt_kid {t : PN} (h : Distinct t) {p : List Str} {n : PN} (hn : nodeAt p t = some n) {k : Str} {c : PN}
    (hc : (k, c) ∈ kids n) : nodeAt (p ++ [k]) t = some c := by
  have hd := distinct_nodeAt h hn
  cases hd with
  | mk h1 h2 =>
    rw [nodeAt_append, hn, Option.bind_some, nodeAt, firstChild_mem h1 hc]
    rfl

/-- Every node has a value or children but not both; keys and values are of the given kinds. -/
inductive Shaped (K V : Str → Prop) : PN → Prop
  | leaf {a v} : V v → Shaped K V (.mk a v [])
  | node {a cs} : cs ≠ [] → (∀ kn ∈ cs, K kn.1) → (∀ kn ∈ cs, Shaped K V kn.2) → Shaped K V (.mk a [] cs)

theorem written_leaf {W : List (List Str)} {last : List Str → Option Str} {t : PN} (h : Written W last t) {p : List Str} {n : PN}
    (hn : nodeAt p t = some n) (hp : p ∈ W) : ∃ s, last p = some s ∧ n.value = s ∧ kids n = [] := by
  obtain ⟨s, h1, h2⟩ := h.value p hp
  rw [hn] at h2
  simp only [Option.map_some, Option.some.injEq] at h2
  exact ⟨s, h1, by rw [← val_clear, h2]; rfl, (kids_clear n).1 (by rw [h2]; rfl)⟩

theorem written_shaped {W : List (List Str)} {last : List Str → Option Str} {t : PN} (h : Written W last t) {K V : Str → Prop}
    (hK : ∀ w ∈ W, ∀ k ∈ w, K k) (hV : ∀ w ∈ W, ∀ s, last w = some s → V s) (n : PN) :
    ∀ p, p ≠ [] → nodeAt p t = some n → Shaped K V n := by
  induction n using PN.induct with
  | h a v cs ih =>
    intro p hp hn
    by_cases hc : cs = []
    · subst hc
      have hw := h.no_kids p _ hp hn rfl
      obtain ⟨s, s1, s2, -⟩ := written_leaf h hn hw
      exact .leaf (by have : v = s := s2; rw [this]; exact hV p hw s s1)
    · have hv : v = [] := by
        by_contra hv
        obtain ⟨s, -, -, s3⟩ := written_leaf h hn (h.has_value p _ hp hn hv)
        exact hc s3
      subst hv
      refine .node hc ?_ ?_
      · rintro ⟨k, c⟩ hkc
        obtain ⟨w, hw, q, hq⟩ := h.on_path _ _ (by simp) (nodeAt_kid h.distinct hn hkc)
        exact hK w hw k (by rw [← hq]; simp)
      · rintro ⟨k, c⟩ hkc
        exact ih (k, c) hkc (p ++ [k]) (by simp) (nodeAt_kid h.distinct hn hkc)

theorem written_kids {W : List (List Str)} {last : List Str → Option Str} {t : PN} (h : Written W last t) {K V : Str → Prop}
    (hK : ∀ w ∈ W, ∀ k ∈ w, K k) (hV : ∀ w ∈ W, ∀ s, last w = some s → V s) {k : Str} {c : PN} (hc : (k, c) ∈ kids t) :
    K k ∧ Shaped K V c := by
  have hn := nodeAt_kid h.distinct (p := []) rfl hc
  obtain ⟨w, hw, q, hq⟩ := h.on_path _ _ (by simp) hn
  exact ⟨hK w hw k (by rw [← hq]; simp), written_shaped h hK hV c _ (by simp) hn⟩

end PN

end Flut
