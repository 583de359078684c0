import Verif.Proofs.PropNode
import Verif.Spec.PropNode
import Verif.Proofs.StringLemmas

/-! # Lemmas about `prop_node` operations -/

namespace Flut

open Spec

namespace PN

/-! ### Finding a child -/

theorem firstChild_append (k : Str) (pre post : List (Str × PN)) :
    firstChild k (pre ++ post) = (firstChild k pre).or (firstChild k post) := by
  induction pre with
  | nil => rfl
  | cons kn pre ih =>
    obtain ⟨k', n⟩ := kn
    simp only [List.cons_append, firstChild]
    split
    · rfl
    · exact ih

theorem firstChild_none {k : Str} {cs : List (Str × PN)} : firstChild k cs = none ↔ k ∉ cs.map Prod.fst := by
  induction cs with
  | nil => simp [firstChild]
  | cons kn cs ih =>
    obtain ⟨k', n⟩ := kn
    simp only [firstChild, List.map_cons, List.mem_cons, not_or]
    by_cases h : k' = k
    · simp [h]
    · rw [if_neg h, ih]
      simp [Ne.symm h]

/-- Where the first child with a key is. -/
theorem findIdx_cases (k : Str) (cs : List (Str × PN)) :
    (findIdx k cs = none ∧ k ∉ cs.map Prod.fst) ∨
    ∃ pre n post, cs = pre ++ (k, n) :: post ∧ k ∉ pre.map Prod.fst ∧ findIdx k cs = some pre.length := by
  induction cs with
  | nil => exact Or.inl ⟨rfl, by simp⟩
  | cons kn cs ih =>
    obtain ⟨k', n⟩ := kn
    by_cases h : k' = k
    · subst h
      exact Or.inr ⟨[], n, cs, rfl, by simp, by simp [findIdx]⟩
    · rcases ih with ⟨h1, h2⟩ | ⟨pre, m, post, rfl, h2, h3⟩
      · left
        refine ⟨by simp [findIdx, h, h1], ?_⟩
        simp only [List.map_cons, List.mem_cons, not_or]
        exact ⟨Ne.symm h, h2⟩
      · right
        refine ⟨(k', n) :: pre, m, post, rfl, ?_, by simp [findIdx, h, h3]⟩
        simp only [List.map_cons, List.mem_cons, not_or]
        exact ⟨Ne.symm h, h2⟩

theorem modifyAt_at (f : PN → PN) (pre : List (Str × PN)) (k : Str) (n : PN) (post : List (Str × PN)) :
    modifyAt f pre.length (pre ++ (k, n) :: post) = pre ++ (k, f n) :: post := by
  induction pre with
  | nil => rfl
  | cons kn pre ih => simp [modifyAt, ih]

theorem getElem_at (pre : List (Str × PN)) (kn : Str × PN) (post : List (Str × PN)) :
    (pre ++ kn :: post)[pre.length]? = some kn := by simp

theorem firstChild_at {k : Str} {pre : List (Str × PN)} (h : k ∉ pre.map Prod.fst) (n : PN) (post : List (Str × PN)) :
    firstChild k (pre ++ (k, n) :: post) = some n := by
  rw [firstChild_append, firstChild_none.2 h]
  simp [firstChild]

theorem firstChild_other {k k' : Str} (h : k' ≠ k) (pre : List (Str × PN)) (n m : PN) (post : List (Str × PN)) :
    firstChild k' (pre ++ (k, n) :: post) = firstChild k' (pre ++ (k, m) :: post) := by
  simp [firstChild_append, firstChild, Ne.symm h]

/-! ### Same content -/

theorem sameTree_refl (n : PN) : SameTree n n := (sameTree_iff n n).2 rfl
theorem sameTree_symm {m n : PN} (h : SameTree m n) : SameTree n m :=
  (sameTree_iff n m).2 ((sameTree_iff m n).1 h).symm
theorem sameTree_trans {a b c : PN} (h : SameTree a b) (h' : SameTree b c) : SameTree a c :=
  (sameTree_iff a c).2 (((sameTree_iff a b).1 h).trans ((sameTree_iff b c).1 h'))

theorem sameTree_keys {m n : PN} (h : SameTree m n) : (kids m).map Prod.fst = (kids n).map Prod.fst := by
  obtain ⟨a, v, cs⟩ := m
  obtain ⟨b, w, ds⟩ := n
  have h := (sameTree_iff _ _).1 h
  simp only [clear, mk.injEq, true_and, clearAll_eq] at h
  have := congrArg (List.map Prod.fst) h.2
  simpa [Function.comp_def, kids] using this

theorem sameTree_first {m n : PN} (h : SameTree m n) (k : Str) :
    (firstChild k (kids m)).map clear = (firstChild k (kids n)).map clear := by
  obtain ⟨a, v, cs⟩ := m
  obtain ⟨b, w, ds⟩ := n
  have h := (sameTree_iff _ _).1 h
  simp only [clear, mk.injEq, true_and] at h
  have key : ∀ cs : List (Str × PN), (firstChild k cs).map clear = firstChild k (clearAll cs) := by
    intro cs
    induction cs with
    | nil => rfl
    | cons x cs ih =>
      obtain ⟨k', n⟩ := x
      simp only [firstChild, clearAll]
      split
      · rfl
      · exact ih
  rw [key, key]; exact congrArg _ h.2

theorem sameTree_clear (n : PN) : SameTree n.clear n := (sameTree_iff _ _).2 (clear_clear n)

theorem clear_assign (n v : PN) : (assign n v).clear = v.clear := by
  obtain ⟨a, x, cs⟩ := n
  obtain ⟨b, y, ds⟩ := v
  have := clear_clear (.mk b y ds)
  simp only [clear, assign] at *
  exact this

theorem sameTree_assign (n v : PN) : SameTree (assign n v) v := (sameTree_iff _ _).2 (clear_assign n v)

theorem sameOpt_iff (m n : Option PN) : SameOpt m n ↔ m.map clear = n.map clear := by
  constructor
  · rintro (_ | h)
    · rfl
    · simp [(sameTree_iff _ _).1 h]
  · intro h
    cases m <;> cases n <;> simp at h
    · exact .none
    · exact .some ((sameTree_iff _ _).2 h)

theorem firstChild_clearAll (k : Str) (cs : List (Str × PN)) :
    firstChild k (clearAll cs) = (firstChild k cs).map clear := by
  induction cs with
  | nil => rfl
  | cons kn cs ih =>
    obtain ⟨k', n⟩ := kn
    simp only [clearAll, firstChild]
    split
    · rfl
    · exact ih

/-- The content of the node at a path depends only on the content of the tree. -/
theorem nodeAt_clear (ks : List Str) (n : PN) : nodeAt ks n.clear = (nodeAt ks n).map clear := by
  induction ks generalizing n with
  | nil => rfl
  | cons k ks ih =>
    obtain ⟨a, v, cs⟩ := n
    simp only [clear, nodeAt, firstChild_clearAll]
    cases firstChild k cs with
    | none => rfl
    | some c => exact ih c

/-! ### `set` -/

theorem set_cases (k : Str) (v : PN) (a : Bool) (val : Str) (cs : List (Str × PN)) :
    (k ∉ cs.map Prod.fst ∧ set k v (.mk a val cs) = .mk true val (cs ++ [(k, v.clear)])) ∨
    ∃ pre n post, cs = pre ++ (k, n) :: post ∧ k ∉ pre.map Prod.fst ∧
      set k v (.mk a val cs) = .mk true val (pre ++ (k, assign n v) :: post) := by
  rcases findIdx_cases k cs with ⟨h1, h2⟩ | ⟨pre, n, post, rfl, h2, h3⟩
  · left; exact ⟨h2, by simp [set, h1]⟩
  · right; exact ⟨pre, n, post, rfl, h2, by simp [set, h3, modifyAt_at]⟩

theorem getOrAdd_cases (k : Str) (a : Bool) (val : Str) (cs : List (Str × PN)) :
    (k ∉ cs.map Prod.fst ∧ getOrAddChild k (.mk a val cs) = (cs.length, .mk true val (cs ++ [(k, nil)]))) ∨
    ∃ pre n post, cs = pre ++ (k, n) :: post ∧ k ∉ pre.map Prod.fst ∧
      getOrAddChild k (.mk a val cs) = (pre.length, .mk true val (pre ++ (k, n.access) :: post)) := by
  rcases findIdx_cases k cs with ⟨h1, h2⟩ | ⟨pre, n, post, rfl, h2, h3⟩
  · left; exact ⟨h2, by simp [getOrAddChild, h1]⟩
  · right; exact ⟨pre, n, post, rfl, h2, by simp [getOrAddChild, h3, modifyAt_at]⟩

/-! ### Delimited keys -/

theorem segments_none {d : Byte} {key : Str} (h : findFirst (· == d) key = none) : segments d key = [key] := by
  induction key with
  | nil => rfl
  | cons c cs ih =>
    simp only [findFirst, List.drop_zero, Option.map_eq_none_iff, List.findIdx?_eq_none_iff] at h ih
    have hc := h c (by simp)
    simp at hc
    rw [segments, if_neg hc, ih fun x hx => h x (by simp [hx])]

theorem segments_some {d : Byte} {key : Str} {p : Nat} (h : findFirst (· == d) key = some p) :
    p < key.length ∧ segments d key = key.take p :: segments d (key.drop (p + 1)) := by
  induction key generalizing p with
  | nil => simp [findFirst] at h
  | cons c cs ih =>
    by_cases hc : c = d
    · simp [findFirst, hc, List.findIdx?_cons] at h
      subst h
      simp [segments, hc]
    · simp [findFirst, List.findIdx?_cons, hc] at h
      obtain ⟨q, hq, rfl⟩ := h
      obtain ⟨h1, h2⟩ := ih (p := q) (by simp [findFirst, hq])
      refine ⟨by simpa using h1, ?_⟩
      rw [segments, if_neg hc, h2]
      simp

theorem segments_ne_nil (d : Byte) (key : Str) : segments d key ≠ [] := by
  cases h : findFirst (· == d) key with
  | none => rw [segments_none h]; simp
  | some p => rw [(segments_some h).2]; simp

theorem nodeAt_access (ks : List Str) (n : PN) : (nodeAt ks n.access).map clear = (nodeAt ks n).map clear := by
  rw [← nodeAt_clear, clear_access, nodeAt_clear]

/-- What `set_delimited` does to a child and to the other paths. -/
theorem set_step {k : Str} {ks : List Str} {a : Bool} {val : Str} {cs pre post : List (Str × PN)} {c0 c : PN}
    (hk : k ∉ pre.map Prod.fst)
    (hother : ∀ q, q ≠ k → firstChild q (pre ++ (k, c0) :: post) = firstChild q cs)
    (hsame : ∀ qs, qs ≠ [] → (nodeAt qs c0).map clear = (nodeAt (k :: qs) (.mk a val cs)).map clear)
    (h2 : ∀ qs, ¬ qs <+: ks → ¬ ks <+: qs → (nodeAt qs c).map clear = (nodeAt qs c0).map clear) :
    nodeAt (k :: ks) (.mk true val (pre ++ (k, c) :: post)) = nodeAt ks c ∧
    ∀ qs, ¬ qs <+: (k :: ks) → ¬ (k :: ks) <+: qs →
      (nodeAt qs (.mk true val (pre ++ (k, c) :: post))).map clear = (nodeAt qs (.mk a val cs)).map clear := by
  refine ⟨by simp [nodeAt, firstChild_at hk], ?_⟩
  intro qs hq1 hq2
  cases qs with
  | nil => exact absurd (List.nil_prefix) hq1
  | cons q qs =>
    by_cases hqk : q = k
    · subst hqk
      rw [List.cons_prefix_cons] at hq1 hq2
      have e1 : ¬ qs <+: ks := fun h => hq1 ⟨rfl, h⟩
      have e2 : ¬ ks <+: qs := fun h => hq2 ⟨rfl, h⟩
      have hne : qs ≠ [] := by rintro rfl; exact e1 List.nil_prefix
      rw [← hsame qs hne, ← h2 qs e1 e2]
      simp [nodeAt, firstChild_at hk]
    · simp only [nodeAt]
      rw [firstChild_other hqk pre c c0 post, hother q hqk]

theorem nodeAt_nil {qs : List Str} (h : qs ≠ []) : nodeAt qs nil = none := by
  cases qs with
  | nil => exact absurd rfl h
  | cons q qs => rfl

theorem setDelimitedN_spec (d : Byte) (v : PN) (n : Nat) : ∀ (key : Str) (t : PN), key.length < n →
    ∃ t', setDelimitedN n d key v t = .ok t' ∧ t'.value = t.value ∧
      (nodeAt (segments d key) t').map clear = some v.clear ∧
      ∀ qs, ¬ qs <+: segments d key → ¬ segments d key <+: qs →
        (nodeAt qs t').map clear = (nodeAt qs t).map clear := by
  induction n with
  | zero => intro key t h; omega
  | succ n ih =>
    intro key t hn
    obtain ⟨a, val, cs⟩ := t
    cases hf : findFirst (· == d) key with
    | none =>
      rw [segments_none hf]
      refine ⟨set key v (.mk a val cs), by simp [setDelimitedN, hf], ?_⟩
      rcases set_cases key v a val cs with ⟨h1, h2⟩ | ⟨pre, n0, post, rfl, h1, h2⟩
      · rw [h2]
        have := set_step (k := key) (ks := []) (a := a) (val := val) (cs := cs) (pre := cs) (post := []) (c0 := nil)
          (c := v.clear) h1 (fun q hq => by simp [firstChild_append, firstChild, Ne.symm hq])
          (fun qs hqs => by simp [nodeAt_nil hqs, nodeAt, firstChild_none.2 h1])
          (fun qs _ h => absurd List.nil_prefix h)
        exact ⟨rfl, by rw [this.1]; simp [nodeAt, clear_clear], this.2⟩
      · rw [h2]
        have := set_step (k := key) (ks := []) (a := a) (val := val) (cs := pre ++ (key, n0) :: post) (pre := pre)
          (post := post) (c0 := n0) (c := assign n0 v) h1 (fun q hq => rfl)
          (fun qs hqs => by simp [nodeAt, firstChild_at h1])
          (fun qs _ h => absurd List.nil_prefix h)
        exact ⟨rfl, by rw [this.1]; simp [nodeAt, clear_assign], this.2⟩
    | some p =>
      obtain ⟨hp, hs⟩ := segments_some hf
      rw [hs]
      have e1 : substr key 0 (some p) = .ok (key.take p) := by simp [substr]
      have e2 : midStr key (p + 1) = .ok (key.drop (p + 1)) := by
        simp only [midStr, substr]; rw [if_neg (by omega)]
      have hlen : (key.drop (p + 1)).length < n := by simp; omega
      rcases getOrAdd_cases (key.take p) a val cs with ⟨h1, h2⟩ | ⟨pre, n0, post, rfl, h1, h2⟩
      · obtain ⟨c, g1, _, g2, g3⟩ := ih (key.drop (p + 1)) nil hlen
        have := set_step (k := key.take p) (ks := segments d (key.drop (p + 1))) (a := a) (val := val) (cs := cs)
          (pre := cs) (post := []) (c0 := nil)
          (c := c) h1 (fun q hq => by simp [firstChild_append, firstChild, Ne.symm hq])
          (fun qs hqs => by simp [nodeAt_nil hqs, nodeAt, firstChild_none.2 h1]) g3
        refine ⟨.mk true val (cs ++ [(key.take p, c)]), ?_, rfl, by rw [this.1]; exact g2, this.2⟩
        simp only [setDelimitedN, hf, e1, e2, Res.bind_ok, h2]
        rw [getElem_at]
        simp only [g1, Res.bind_ok]
        rw [modifyAt_at]
      · obtain ⟨c, g1, _, g2, g3⟩ := ih (key.drop (p + 1)) n0.access hlen
        have := set_step (k := key.take p) (ks := segments d (key.drop (p + 1))) (a := a) (val := val)
          (cs := pre ++ (key.take p, n0) :: post) (pre := pre) (post := post) (c0 := n0.access)
          (c := c) h1 (fun q hq => firstChild_other hq _ _ _ _)
          (fun qs hqs => by rw [nodeAt_access]; simp [nodeAt, firstChild_at h1]) g3
        refine ⟨.mk true val (pre ++ (key.take p, c) :: post), ?_, rfl, by rw [this.1]; exact g2, this.2⟩
        simp only [setDelimitedN, hf, e1, e2, Res.bind_ok, h2]
        rw [getElem_at]
        simp only [g1, Res.bind_ok]
        rw [modifyAt_at]

theorem getKeyed_spec {α : Type} (cast : PN → Res α) (k : Str) (a : Bool) (val : Str) (cs : List (Str × PN)) :
    (firstChild k cs = none ∧ getKeyed cast k (.mk a val cs) = .throws .flutError) ∨
    ∃ pre n post, cs = pre ++ (k, n) :: post ∧ k ∉ pre.map Prod.fst ∧ firstChild k cs = some n ∧
      getKeyed cast k (.mk a val cs) =
        (do let x ← cast n.clear; .ok (x, .mk true val (pre ++ (k, n.access) :: post))) := by
  rcases findIdx_cases k cs with ⟨h1, h2⟩ | ⟨pre, n, post, rfl, h2, h3⟩
  · left; exact ⟨firstChild_none.2 h2, by simp [getKeyed, h1]⟩
  · right
    refine ⟨pre, n, post, rfl, h2, firstChild_at h2 _ _, ?_⟩
    simp only [getKeyed, h3, getElem_at, modifyAt_at]

/-! ### Access flags -/

theorem zip_self_eq {α : Type} {l : List α} {p : α × α} (h : p ∈ l.zip l) : p.1 = p.2 := by
  induction l with
  | nil => simp at h
  | cons x xs ih =>
    rw [List.zip_cons_cons] at h
    rcases List.mem_cons.1 h with rfl | h
    · rfl
    · exact ih h

theorem moreAccessed_refl (n : PN) : MoreAccessed n n := by
  induction n using PN.induct with
  | h a v cs ih =>
    refine .mk id rfl ?_
    intro p hp
    rw [← zip_self_eq hp]
    exact ih p.1 (List.of_mem_zip hp).1

theorem moreAccessed_trans {a b c : PN} (h : MoreAccessed a b) (h' : MoreAccessed b c) : MoreAccessed a c := by
  induction h generalizing c with
  | @mk a b v cs ds hab hk hc ih =>
    cases h' with
    | @mk _ b' _ _ es hab' hk' hc' =>
    refine .mk (hab' ∘ hab) (hk.trans hk') ?_
    clear hab hab'
    induction cs generalizing ds es with
    | nil => simp
    | cons x xs ihx =>
      cases ds with
      | nil => simp at hk
      | cons y ys =>
        cases es with
        | nil => simp at hk'
        | cons z zs =>
          simp at hk hk'
          intro p hp
          rcases List.mem_cons.1 (by simpa using hp) with rfl | hp
          · exact ih (x, y) (by simp) (hc' (y, z) (by simp))
          · exact ihx hk.2 (fun p hp => hc p (by rw [List.zip_cons_cons]; exact List.mem_cons_of_mem _ hp))
              (fun p hp => ih p (by rw [List.zip_cons_cons]; exact List.mem_cons_of_mem _ hp)) hk'.2
              (fun p hp => hc' p (by rw [List.zip_cons_cons]; exact List.mem_cons_of_mem _ hp)) p hp

theorem moreAccessed_sameTree {m n : PN} (h : MoreAccessed m n) : SameTree m n := by
  induction h with
  | mk _ hk _ ih => exact .mk hk ih

/-- Changing one child. -/
theorem moreAccessed_at {a : Bool} {val : Str} (pre : List (Str × PN)) (k : Str) {n m : PN} (post : List (Str × PN))
    (h : MoreAccessed n m) : MoreAccessed (.mk a val (pre ++ (k, n) :: post)) (.mk true val (pre ++ (k, m) :: post)) := by
  refine .mk (fun _ => rfl) (by simp) ?_
  intro p hp
  induction pre with
  | nil =>
    rcases List.mem_cons.1 (by simpa using hp) with rfl | hp
    · exact h
    · rw [zip_self_eq hp]; exact moreAccessed_refl _
  | cons z zs ih =>
    rcases List.mem_cons.1 (by simpa using hp) with rfl | hp
    · exact moreAccessed_refl _
    · exact ih hp

theorem moreAccessed_self {a : Bool} {val : Str} {cs : List (Str × PN)} :
    MoreAccessed (.mk a val cs) (.mk true val cs) := by
  have := moreAccessed_refl (.mk a val cs)
  cases this with
  | mk _ hk hc => exact .mk (fun _ => rfl) hk hc

theorem moreAccessed_access (n : PN) : MoreAccessed n n.access := by
  cases n; exact moreAccessed_self

theorem getDelimitedN_spec {α : Type} (cast : PN → Res α) (d : Byte) (n : Nat) : ∀ (key : Str) (t : PN),
    key.length < n → (nodeAt (segments d key) t = none ∧ getDelimitedN cast n d key t = .throws .flutError) ∨
    ∃ c t', nodeAt (segments d key) t = some c ∧ MoreAccessed t t' ∧
      getDelimitedN cast n d key t = (do let x ← cast c.clear; .ok (x, t')) := by
  induction n with
  | zero => intro key t h; omega
  | succ n ih =>
    intro key t hn
    obtain ⟨a, val, cs⟩ := t
    cases hf : findFirst (· == d) key with
    | none =>
      rw [segments_none hf]
      simp only [getDelimitedN, hf]
      rcases getKeyed_spec cast key a val cs with ⟨h1, h2⟩ | ⟨pre, m, post, rfl, _, h1, h2⟩
      · left; exact ⟨by simp [nodeAt, h1], h2⟩
      · right; exact ⟨m, _, by simp [nodeAt, h1], moreAccessed_at _ _ _ (moreAccessed_access m), h2⟩
    | some p =>
      obtain ⟨hp, hs⟩ := segments_some hf
      rw [hs]
      have e1 : substr key 0 (some p) = .ok (key.take p) := by simp [substr]
      have e2 : midStr key (p + 1) = .ok (key.drop (p + 1)) := by
        simp only [midStr, substr]; rw [if_neg (by omega)]
      have hlen : (key.drop (p + 1)).length < n := by simp; omega
      simp only [getDelimitedN, hf, e1, e2, Res.bind_ok]
      rcases findIdx_cases (key.take p) cs with ⟨h1, h2⟩ | ⟨pre, m, post, rfl, h2, h3⟩
      · left
        exact ⟨by simp [nodeAt, firstChild_none.2 h2], by simp [getChild, h1]⟩
      · simp only [getChild, h3, Res.bind_ok, getElem_at]
        rcases ih (key.drop (p + 1)) m hlen with ⟨g1, g2⟩ | ⟨c, t', g1, g2, g3⟩
        · left
          exact ⟨by simp [nodeAt, firstChild_at h2, g1], by simp [g2]⟩
        · right
          refine ⟨c, .mk true val (pre ++ (key.take p, t') :: post), by simp [nodeAt, firstChild_at h2, g1],
            moreAccessed_at _ _ _ g2, ?_⟩
          rw [g3]
          cases cast c.clear <;> simp [modifyAt_at]

theorem tryGetDelimitedN_spec (d : Byte) (n : Nat) : ∀ (key : Str) (t : PN), key.length < n →
    ∃ r, tryGetDelimitedN n d key t = .ok r ∧ r.map clear = (nodeAt (segments d key) t).map clear := by
  induction n with
  | zero => intro key t h; omega
  | succ n ih =>
    intro key t hn
    obtain ⟨a, val, cs⟩ := t
    cases hf : findFirst (· == d) key with
    | none =>
      rw [segments_none hf]
      simp only [tryGetDelimitedN, hf, tryGetChild]
      rcases findIdx_cases key cs with ⟨h1, h2⟩ | ⟨pre, m, post, rfl, h2, h3⟩
      · exact ⟨none, by simp [h1], by simp [nodeAt, firstChild_none.2 h2]⟩
      · refine ⟨some m.access, by simp [h3, modifyAt_at, children], by simp [nodeAt, firstChild_at h2]⟩
    | some p =>
      obtain ⟨hp, hs⟩ := segments_some hf
      rw [hs]
      have e1 : substr key 0 (some p) = .ok (key.take p) := by simp [substr]
      have e2 : midStr key (p + 1) = .ok (key.drop (p + 1)) := by
        simp only [midStr, substr]; rw [if_neg (by omega)]
      have hlen : (key.drop (p + 1)).length < n := by simp; omega
      simp only [tryGetDelimitedN, hf, e1, e2, Res.bind_ok, tryGetChild]
      rcases findIdx_cases (key.take p) cs with ⟨h1, h2⟩ | ⟨pre, m, post, rfl, h2, h3⟩
      · exact ⟨none, by simp [h1], by simp [nodeAt, firstChild_none.2 h2]⟩
      · obtain ⟨r, g1, g2⟩ := ih (key.drop (p + 1)) m.access hlen
        refine ⟨r, by simp [h3, modifyAt_at, children, g1], ?_⟩
        rw [g2, nodeAt_access]
        simp [nodeAt, firstChild_at h2]

/-! ### Views -/

theorem viewLoop_filter {α : Type} (p : α → Bool) (n : Nat) : ∀ l : List α, l.length < n → viewLoop p n l = .ok (l.filter p) := by
  induction n with
  | zero => intro l h; omega
  | succ n ih =>
    intro l hl
    have hf : l.filter p = (l.dropWhile fun a => !p a).filter p := by
      clear hl
      induction l with
      | nil => rfl
      | cons a l ih2 =>
        by_cases ha : p a = true
        · simp [ha]
        · simp [ha, ih2]
    have hlen : (l.dropWhile fun a => !p a).length ≤ l.length := (List.dropWhile_sublist _).length_le
    have hhd := List.head?_dropWhile_not (fun a => !p a) l
    rw [hf, viewLoop]
    cases h : l.dropWhile fun a => !p a with
    | nil => rfl
    | cons a r =>
      rw [h] at hlen hhd
      simp at hlen hhd
      simp only [ih r (by omega), Res.bind_ok, List.filter_cons, hhd, if_true]

/-! ### Equality -/

theorem eqv_iff (m n : PN) : eqv m n = true ↔ m.clear = n.clear := by
  induction m using PN.induct generalizing n with
  | h a v cs ih =>
    obtain ⟨b, w, ds⟩ := n
    simp only [eqv, clear, Bool.and_eq_true, decide_eq_true_eq, mk.injEq, true_and]
    have key : (cs.length = ds.length ∧ eqvAll cs ds = true) ↔ clearAll cs = clearAll ds := by
      clear a b v w
      induction cs generalizing ds with
      | nil =>
        cases ds with
        | nil => simp [eqvAll]
        | cons y ys => obtain ⟨k, m⟩ := y; simp [clearAll]
      | cons x xs ihx =>
        obtain ⟨k, m⟩ := x
        cases ds with
        | nil => simp [clearAll]
        | cons y ys =>
          obtain ⟨k', m'⟩ := y
          have h1 := ih (k, m) (by simp) m'
          have h2 := ihx (fun kn h => ih kn (by simp [h])) ys
          simp only at h1
          simp only [eqvAll, clearAll, List.length_cons, Bool.and_eq_true, decide_eq_true_eq, List.cons.injEq,
            Prod.mk.injEq, ← h2, h1]
          constructor
          · rintro ⟨e1, ⟨e2, e3⟩, e4⟩
            exact ⟨⟨e2, e3⟩, by omega, e4⟩
          · rintro ⟨⟨e2, e3⟩, e1, e4⟩
            exact ⟨by omega, ⟨e2, e3⟩, e4⟩
    rw [and_assoc, key]

/-! ### Counting -/

theorem countUnaccessed_flags (n : PN) : countUnaccessed n = (flags n).count false := by
  induction n using PN.induct with
  | h a v cs ih =>
    have key : countUnaccessedAll cs = (flagsAll cs).count false := by
      induction cs with
      | nil => rfl
      | cons x xs ihx =>
        obtain ⟨k, m⟩ := x
        have := ih (k, m) (by simp)
        simp only at this
        simp [countUnaccessedAll, flagsAll, this, ihx fun kn h => ih kn (by simp [h])]
    simp only [countUnaccessed, flags, key, List.count_cons]
    cases a <;> simp <;> omega

theorem flags_clear (n : PN) : flags n.clear = (flags n).map fun _ => false := by
  induction n using PN.induct with
  | h a v cs ih =>
    have key : flagsAll (clearAll cs) = (flagsAll cs).map fun _ => false := by
      induction cs with
      | nil => rfl
      | cons x xs ihx =>
        obtain ⟨k, m⟩ := x
        have := ih (k, m) (by simp)
        simp only at this
        simp [clearAll, flagsAll, this, ihx fun kn h => ih kn (by simp [h])]
    simp [clear, flags, key]

/-! ### Reads -/

theorem getAny_spec {α : Type} (cast : PN → Res α) (keys : List Str) : ∀ (a : Bool) (val : Str) (cs : List (Str × PN)),
    ((∀ k ∈ keys, firstChild k cs = none) ∧ getAny cast keys (.mk a val cs) = .throws .flutError) ∨
    ∃ ks1 k ks2 n t', keys = ks1 ++ k :: ks2 ∧ (∀ k' ∈ ks1, firstChild k' cs = none) ∧ firstChild k cs = some n ∧
      MoreAccessed (.mk a val cs) t' ∧ getAny cast keys (.mk a val cs) = (do let x ← cast n.clear; .ok (x, t')) := by
  induction keys with
  | nil => intro a val cs; exact Or.inl ⟨by simp, rfl⟩
  | cons k keys ih =>
    intro a val cs
    cases hf : findIdx k cs with
    | none =>
      have hnone : firstChild k cs = none := by
        rcases findIdx_cases k cs with ⟨_, h⟩ | ⟨_, _, _, _, _, h⟩
        · exact firstChild_none.2 h
        · rw [hf] at h; cases h
      simp only [getAny, hf]
      rcases ih true val cs with ⟨h1, h2⟩ | ⟨ks1, k', ks2, n, t', rfl, h2, h3, h4, h5⟩
      · left
        refine ⟨?_, h2⟩
        intro x hx
        rcases List.mem_cons.1 hx with rfl | hx
        · exact hnone
        · exact h1 x hx
      · right
        refine ⟨k :: ks1, k', ks2, n, t', rfl, ?_, h3, moreAccessed_trans moreAccessed_self h4, h5⟩
        intro x hx
        rcases List.mem_cons.1 hx with rfl | hx
        · exact hnone
        · exact h2 x hx
    | some i =>
      right
      simp only [getAny, hf]
      rcases getKeyed_spec cast k a val cs with ⟨h1, h2⟩ | ⟨pre, n, post, rfl, h0, h1, h2⟩
      · rw [firstChild_none] at h1
        rcases findIdx_cases k cs with ⟨h, _⟩ | ⟨_, _, _, h, _, _⟩
        · rw [hf] at h; cases h
        · rw [h] at h1; simp at h1
      · exact ⟨[], k, keys, n, _, rfl, by simp, h1, moreAccessed_at _ _ _ (moreAccessed_access n), h2⟩

theorem getAnyDef_spec {α : Type} (cast : PN → Res α) (dflt : α) (keys : List Str) :
    ∀ (a : Bool) (val : Str) (cs : List (Str × PN)),
    (∃ t', (∀ k ∈ keys, firstChild k cs = none) ∧ MoreAccessed (.mk a val cs) t' ∧
      getAnyDef cast keys dflt (.mk a val cs) = .ok (dflt, t')) ∨
    ∃ ks1 k ks2 n t', keys = ks1 ++ k :: ks2 ∧ (∀ k' ∈ ks1, firstChild k' cs = none) ∧ firstChild k cs = some n ∧
      MoreAccessed (.mk a val cs) t' ∧ getAnyDef cast keys dflt (.mk a val cs) = (do let x ← cast n.clear; .ok (x, t')) := by
  induction keys with
  | nil => intro a val cs; exact Or.inl ⟨_, by simp, moreAccessed_refl _, rfl⟩
  | cons k keys ih =>
    intro a val cs
    cases hf : findIdx k cs with
    | none =>
      have hnone : firstChild k cs = none := by
        rcases findIdx_cases k cs with ⟨_, h⟩ | ⟨_, _, _, _, _, h⟩
        · exact firstChild_none.2 h
        · rw [hf] at h; cases h
      simp only [getAnyDef, hf]
      rcases ih true val cs with ⟨t', h1, h2, h3⟩ | ⟨ks1, k', ks2, n, t', rfl, h2, h3, h4, h5⟩
      · left
        refine ⟨t', ?_, moreAccessed_trans moreAccessed_self h2, h3⟩
        intro x hx
        rcases List.mem_cons.1 hx with rfl | hx
        · exact hnone
        · exact h1 x hx
      · right
        refine ⟨k :: ks1, k', ks2, n, t', rfl, ?_, h3, moreAccessed_trans moreAccessed_self h4, h5⟩
        intro x hx
        rcases List.mem_cons.1 hx with rfl | hx
        · exact hnone
        · exact h2 x hx
    | some i =>
      right
      simp only [getAnyDef, hf]
      rcases getKeyed_spec cast k a val cs with ⟨h1, h2⟩ | ⟨pre, n, post, rfl, h0, h1, h2⟩
      · rw [firstChild_none] at h1
        rcases findIdx_cases k cs with ⟨h, _⟩ | ⟨_, _, _, h, _, _⟩
        · rw [hf] at h; cases h
        · rw [h] at h1; simp at h1
      · exact ⟨[], k, keys, n, _, rfl, by simp, h1, moreAccessed_at _ _ _ (moreAccessed_access n), h2⟩

theorem getDef_eq {α : Type} (cast : PN → Res α) (dflt : α) (k : Str) (t : PN) :
    getDef cast k dflt t = getAnyDef cast [k] dflt t := by
  obtain ⟨a, v, cs⟩ := t
  simp only [getDef, getAnyDef]

theorem tryGetChild_more (k : Str) (t : PN) : MoreAccessed t (tryGetChild k t).2 := by
  obtain ⟨a, v, cs⟩ := t
  rcases findIdx_cases k cs with ⟨h1, _⟩ | ⟨pre, n, post, rfl, _, h1⟩
  · simp only [tryGetChild, h1]; exact moreAccessed_self
  · simp only [tryGetChild, h1, modifyAt_at]; exact moreAccessed_at _ _ _ (moreAccessed_access n)

theorem split_at_index {cs : List (Str × PN)} {i : Nat} {kn : Str × PN} (h : cs[i]? = some kn) :
    ∃ pre post, cs = pre ++ kn :: post ∧ pre.length = i := by
  have hi : i < cs.length := by
    apply Classical.byContradiction
    intro hn
    rw [List.getElem?_eq_none (by omega)] at h
    cases h
  refine ⟨cs.take i, cs.drop (i + 1), ?_, by simp; omega⟩
  rw [List.getElem?_eq_getElem hi] at h
  cases h
  simp

theorem moreAccessed_child {a : Bool} {val : Str} (pre : List (Str × PN)) (k : Str) {n m : PN} (post : List (Str × PN))
    (h : MoreAccessed n m) : MoreAccessed (.mk a val (pre ++ (k, n) :: post)) (.mk a val (pre ++ (k, m) :: post)) := by
  have := moreAccessed_at (a := a) (val := val) pre k post h
  cases this with
  | mk _ hk hc => exact .mk id hk hc

theorem read_more (op : ReadOp) : ∀ t t', op.run t = .ok t' → MoreAccessed t t' := by
  have key : ∀ {α : Type} (x : Res α) (f : α → PN) (t' : PN), (do let r ← x; .ok (f r)) = .ok t' → ∃ r, x = .ok r ∧ f r = t' := by
    intro α x f t' h
    cases x <;> simp at h
    exact ⟨_, rfl, h⟩
  induction op with
  | hasKey k =>
    rintro ⟨a, v, cs⟩ t' h
    simp [ReadOp.run, PN.hasKey] at h; rw [← h]; exact moreAccessed_self
  | hasValueAt k =>
    rintro ⟨a, v, cs⟩ t' h
    rcases findIdx_cases k cs with ⟨h1, _⟩ | ⟨pre, n, post, rfl, _, h1⟩
    · simp [ReadOp.run, PN.hasValueAt, h1] at h; rw [← h]; exact moreAccessed_self
    · simp [ReadOp.run, PN.hasValueAt, h1] at h; rw [← h]; exact moreAccessed_self
  | getChild k =>
    rintro ⟨a, v, cs⟩ t' h
    cases hf : findIdx k cs with
    | none => simp [ReadOp.run, PN.getChild, hf] at h
    | some i => simp [ReadOp.run, PN.getChild, hf] at h; rw [← h]; exact moreAccessed_self
  | getChildAt i =>
    rintro ⟨a, v, cs⟩ t' h
    cases hf : cs[i]? with
    | none => simp [ReadOp.run, PN.getChildAt, hf] at h
    | some i => simp [ReadOp.run, PN.getChildAt, hf] at h; rw [← h]; exact moreAccessed_self
  | getKey i =>
    rintro ⟨a, v, cs⟩ t' h
    cases hf : cs[i]? with
    | none => simp [ReadOp.run, PN.getKey, hf] at h
    | some i => simp [ReadOp.run, PN.getKey, hf] at h; rw [← h]; exact moreAccessed_self
  | get cast =>
    intro t t' h
    simp only [ReadOp.run, PN.get] at h
    cases hc : cast t.clear <;> simp [hc] at h
    rw [← h]; exact moreAccessed_access t
  | getKeyed cast k =>
    rintro ⟨a, v, cs⟩ t' h
    obtain ⟨r, h1, h2⟩ := key _ _ _ h
    rcases getKeyed_spec cast k a v cs with ⟨_, h3⟩ | ⟨pre, n, post, rfl, _, _, h3⟩
    · rw [h3] at h1; cases h1
    · rw [h3] at h1
      cases hc : cast n.clear <;> simp [hc] at h1
      rw [← h2, ← h1]; exact moreAccessed_at _ _ _ (moreAccessed_access n)
  | getDef cast k =>
    rintro ⟨a, v, cs⟩ t' h
    obtain ⟨r, h1, h2⟩ := key _ _ _ h
    rw [getDef_eq] at h1
    rcases getAnyDef_spec cast () [k] a v cs with ⟨u, _, h3, h4⟩ | ⟨_, _, _, n, u, _, _, _, h3, h4⟩
    · rw [h4] at h1; simp at h1; rw [← h2, ← h1]; exact h3
    · rw [h4] at h1
      cases hc : cast n.clear <;> simp [hc] at h1
      rw [← h2, ← h1]; exact h3
  | getAny cast ks =>
    rintro ⟨a, v, cs⟩ t' h
    obtain ⟨r, h1, h2⟩ := key _ _ _ h
    rcases getAny_spec cast ks a v cs with ⟨_, h4⟩ | ⟨_, _, _, n, u, _, _, _, h3, h4⟩
    · rw [h4] at h1; simp at h1
    · rw [h4] at h1
      cases hc : cast n.clear <;> simp [hc] at h1
      rw [← h2, ← h1]; exact h3
  | getAnyDef cast ks =>
    rintro ⟨a, v, cs⟩ t' h
    obtain ⟨r, h1, h2⟩ := key _ _ _ h
    rcases getAnyDef_spec cast () ks a v cs with ⟨u, _, h3, h4⟩ | ⟨_, _, _, n, u, _, _, _, h3, h4⟩
    · rw [h4] at h1; simp at h1; rw [← h2, ← h1]; exact h3
    · rw [h4] at h1
      cases hc : cast n.clear <;> simp [hc] at h1
      rw [← h2, ← h1]; exact h3
  | tryGetChild k =>
    intro t t' h
    simp only [ReadOp.run, Res.ok.injEq] at h
    rw [← h]; exact tryGetChild_more k t
  | getDelimited cast d k =>
    intro t t' h
    obtain ⟨r, h1, h2⟩ := key _ _ _ h
    rcases getDelimitedN_spec cast d (k.length + 1) k t (by omega) with ⟨_, h3⟩ | ⟨c, u, _, h3, h4⟩
    · rw [getDelimited, h3] at h1; cases h1
    · rw [getDelimited, h4] at h1
      cases hc : cast c.clear <;> simp [hc] at h1
      rw [← h2, ← h1]; exact h3
  | child i op ih =>
    rintro ⟨a, v, cs⟩ t' h
    cases hf : cs[i]? with
    | none => simp [ReadOp.run, hf] at h
    | some kn =>
      obtain ⟨k, n⟩ := kn
      obtain ⟨pre, post, rfl, rfl⟩ := split_at_index hf
      simp only [ReadOp.run, hf] at h
      cases hc : op.run n <;> simp [hc] at h
      rename_i c
      rw [← h, modifyAt_at]
      exact moreAccessed_child _ _ _ (ih n c hc)

/-! ### Merging -/

theorem modifyAt_keys (f : PN → PN) (i : Nat) (cs : List (Str × PN)) : (modifyAt f i cs).map Prod.fst = cs.map Prod.fst := by
  induction cs generalizing i with
  | nil => cases i <;> rfl
  | cons x xs ih => cases i <;> simp [modifyAt, ih]

theorem merge_keys (ow : Bool) (os : List (Str × PN)) : ∀ cs : List (Str × PN),
    (mergeLoop ow cs os).map Prod.fst = cs.map Prod.fst ++ newKeys (cs.map Prod.fst) (os.map Prod.fst) := by
  induction os with
  | nil => intro cs; simp [mergeLoop, newKeys]
  | cons kn os ih =>
    obtain ⟨k, n⟩ := kn
    intro cs
    rcases findIdx_cases k cs with ⟨h1, h2⟩ | ⟨pre, m, post, hcs, _, h1⟩
    · simp only [mergeLoop, h1, ih, List.map_append, List.map_cons, List.map_nil, newKeys, h2, if_false]
      simp
    · have hmem : k ∈ cs.map Prod.fst := by rw [hcs]; simp
      simp only [mergeLoop, h1, ih, List.map_cons, newKeys, hmem, if_true]
      cases ow <;> simp [modifyAt_keys]

theorem merge_keep (os : List (Str × PN)) : ∀ cs : List (Str × PN), cs <+: mergeLoop false cs os := by
  induction os with
  | nil => intro cs; exact List.prefix_refl cs
  | cons kn os ih =>
    obtain ⟨k, n⟩ := kn
    intro cs
    rcases findIdx_cases k cs with ⟨h1, h2⟩ | ⟨pre, m, post, hcs, _, h1⟩
    · simp only [mergeLoop, h1]
      exact (List.prefix_append cs _).trans (ih _)
    · simp only [mergeLoop, h1, Bool.false_eq_true, if_false]
      exact ih _

theorem merge_first_keep (os : List (Str × PN)) (k' : Str) : ∀ cs : List (Str × PN),
    (firstChild k' (mergeLoop false cs os)).map clear = ((firstChild k' cs).or (firstChild k' os)).map clear := by
  induction os with
  | nil => intro cs; simp [mergeLoop, firstChild]
  | cons kn os ih =>
    obtain ⟨k, n⟩ := kn
    intro cs
    rcases findIdx_cases k cs with ⟨h1, h2⟩ | ⟨pre, m, post, hcs, h2, h1⟩
    · simp only [mergeLoop, h1, ih, firstChild_append, firstChild]
      by_cases hk : k = k'
      · subst hk
        simp [firstChild_none.2 h2, clear_clear]
      · simp [hk]
    · simp only [mergeLoop, h1, Bool.false_eq_true, if_false, ih, firstChild]
      by_cases hk : k = k'
      · subst hk
        rw [hcs, firstChild_at h2]; simp
      · simp [hk]

theorem merge_first_overwrite (os : List (Str × PN)) (k' : Str) : ∀ cs : List (Str × PN),
    (firstChild k' (mergeLoop true cs os)).map clear = ((lastChild k' os).or (firstChild k' cs)).map clear := by
  induction os with
  | nil => intro cs; simp [mergeLoop, lastChild]
  | cons kn os ih =>
    obtain ⟨k, n⟩ := kn
    intro cs
    have key : ∀ cs' : List (Str × PN), (k ≠ k' → firstChild k' cs' = firstChild k' cs) →
        (k = k' → (firstChild k' cs').map clear = some n.clear) →
        ((lastChild k' os).or (firstChild k' cs')).map clear =
          ((lastChild k' ((k, n) :: os)).or (firstChild k' cs)).map clear := by
      intro cs' e1 e2
      simp only [lastChild]
      cases lastChild k' os with
      | some m => simp
      | none =>
        by_cases hk : k = k'
        · simp [hk, e2 hk]
        · simp [hk, e1 hk]
    rcases findIdx_cases k cs with ⟨h1, h2⟩ | ⟨pre, m, post, hcs, h2, h1⟩
    · simp only [mergeLoop, h1, ih]
      apply key
      · intro hk; simp [firstChild_append, firstChild, hk]
      · rintro rfl; simp [firstChild_append, firstChild, firstChild_none.2 h2, clear_clear]
    · simp only [mergeLoop, h1, if_true, ih]
      rw [hcs, modifyAt_at]
      apply (key _ _ _).trans
      · rw [hcs]
      · intro hk; rw [hcs]; exact firstChild_other (Ne.symm hk) _ _ _ _
      · rintro rfl; rw [firstChild_at h2]; simp [clear_assign]

theorem modifyAt_get_ne (f : PN → PN) (i j : Nat) (h : i ≠ j) (cs : List (Str × PN)) :
    (modifyAt f i cs)[j]? = cs[j]? := by
  induction cs generalizing i j with
  | nil => cases i <;> rfl
  | cons x xs ih =>
    cases i with
    | zero => cases j with
      | zero => exact absurd rfl h
      | succ j => simp [modifyAt]
    | succ i => cases j with
      | zero => simp [modifyAt]
      | succ j => simp [modifyAt, ih i j (by omega)]

theorem merge_other_children (ow : Bool) (os : List (Str × PN)) (i : Nat) (kn : Str × PN) : ∀ cs : List (Str × PN),
    cs[i]? = some kn → (kn.1 ∈ os.map Prod.fst → kn.1 ∈ (cs.take i).map Prod.fst) →
    (mergeLoop ow cs os)[i]? = some kn := by
  induction os with
  | nil => intro cs h _; exact h
  | cons ko os ih =>
    obtain ⟨k, n⟩ := ko
    intro cs h hi
    have hlt : i < cs.length := by
      apply Classical.byContradiction
      intro hn
      rw [List.getElem?_eq_none (by omega)] at h; cases h
    rcases findIdx_cases k cs with ⟨h1, h2⟩ | ⟨pre, m, post, hcs, h2, h1⟩
    · simp only [mergeLoop, h1]
      apply ih
      · rw [List.getElem?_append_left hlt, h]
      · intro hm
        rw [List.take_append_of_le_length (by omega)]
        exact hi (by simp [hm])
    · simp only [mergeLoop, h1]
      cases ow with
      | false => exact ih cs h (fun hm => hi (by simp [hm]))
      | true =>
        simp only [if_true]
        apply ih
        · by_cases hp : pre.length = i
          · exfalso
            subst hp
            rw [hcs] at h hi
            simp at h
            rw [← h] at hi
            simp at hi
            exact h2 (by simpa using hi)
          · rw [modifyAt_get_ne _ _ _ hp, h]
        · intro hm
          have := hi (by simp [hm])
          rwa [List.map_take, modifyAt_keys, ← List.map_take]

end PN

end Flut
