import Verif.Spec.PropRefs

/-!
# Lemmas on references to nodes of a property tree
-/

namespace Flut

namespace BN

/-- The block and the number of children of the node at a path. -/
def info (p : List Nat) (t : BN) : Option (Nat × Nat) := (nodeAt p t).map fun x => (x.block, x.children.length)

theorem info_nil (x : BN) : info [] x = some (x.block, x.children.length) := rfl

theorem info_cons (i : Nat) (p : List Nat) (x : BN) : info (i :: p) x = x.children[i]?.bind fun kx => info p kx.2 := by
  unfold info
  rw [nodeAt]
  cases x.children[i]? <;> rfl

/-- Different vectors have different blocks. -/
def Uniq (t : BN) : Prop := ∀ p q b l l', info p t = some (b, l) → info q t = some (b, l') → p = q

/-- All blocks have numbers from `m` to below `n`. -/
def Within (m n : Nat) (t : BN) : Prop := ∀ p b l, info p t = some (b, l) → m ≤ b ∧ b < n

/-- The same for children. -/
def UniqAll (cs : List (Str × BN)) : Prop :=
  ∀ (i j : Nat) (p q : List Nat) (b l l' : Nat), (cs[i]?.bind fun kx => info p kx.2) = some (b, l) →
    (cs[j]?.bind fun kx => info q kx.2) = some (b, l') → i = j ∧ p = q

def WithinAll (m n : Nat) (cs : List (Str × BN)) : Prop :=
  ∀ (i : Nat) (p : List Nat) (b l : Nat), (cs[i]?.bind fun kx => info p kx.2) = some (b, l) → m ≤ b ∧ b < n

theorem within_mk {m n : Nat} {a : Bool} {v : Str} {b c : Nat} {cs : List (Str × BN)} (hb : m ≤ b ∧ b < n) (h : WithinAll m n cs) :
    Within m n (mk a v b c cs) := by
  intro p b' l hp
  cases p with
  | nil => cases hp; exact hb
  | cons i p => rw [info_cons] at hp; exact h i p b' l hp

theorem uniq_mk {a : Bool} {v : Str} {b c : Nat} {cs : List (Str × BN)}
    (hf : ∀ (i : Nat) (p : List Nat) (l : Nat), (cs[i]?.bind fun kx => info p kx.2) ≠ some (b, l)) (h : UniqAll cs) : Uniq (mk a v b c cs) := by
  intro p q b' l l' hp hq
  cases p with
  | nil =>
    cases q with
    | nil => rfl
    | cons j q => rw [info_cons] at hq; cases hp; exact absurd hq (hf j q l')
  | cons i p =>
    cases q with
    | nil => rw [info_cons] at hp; cases hq; exact absurd hp (hf i p l)
    | cons j q =>
      rw [info_cons] at hp hq
      obtain ⟨rfl, rfl⟩ := h i j p q b' l l' hp hq
      rfl

theorem WithinAll.mono {m n m' n' : Nat} {cs : List (Str × BN)} (h : WithinAll m n cs) (hm : m' ≤ m) (hn : n ≤ n') : WithinAll m' n' cs := by
  intro i p b l hp
  have := h i p b l hp
  omega

theorem Within.mono {m n m' n' : Nat} {t : BN} (h : Within m n t) (hm : m' ≤ m) (hn : n ≤ n') : Within m' n' t := by
  intro p b l hp
  have := h p b l hp
  omega

theorem withinAll_nil (m n : Nat) : WithinAll m n [] := by
  intro i p b l hp
  simp at hp

theorem uniqAll_nil : UniqAll [] := by
  intro i j p q b l l' hp
  simp at hp

theorem within_leaf (v : Str) (n : Nat) : Within n (n + 1) (leaf v n) := within_mk (by omega) (withinAll_nil _ _)

theorem uniq_leaf (v : Str) (n : Nat) : Uniq (leaf v n) := uniq_mk (by simp) uniqAll_nil

mutual
theorem copy_fresh (n : Nat) : ∀ x : BN, n < (copy n x).1 ∧ Within n (copy n x).1 (copy n x).2 ∧ Uniq (copy n x).2
  | mk a v b c cs => by
    obtain ⟨h1, h2, h3⟩ := copyAll_fresh (n + 1) cs
    simp only [copy]
    refine ⟨by omega, within_mk (by omega) (h2.mono (by omega) (by omega)), uniq_mk ?_ h3⟩
    intro i p l hp
    have := h2 i p n l hp
    omega
theorem copyAll_fresh (n : Nat) : ∀ cs : List (Str × BN), n ≤ (copyAll n cs).1 ∧ WithinAll n (copyAll n cs).1 (copyAll n cs).2 ∧ UniqAll (copyAll n cs).2
  | [] => ⟨Nat.le_refl _, withinAll_nil _ _, uniqAll_nil⟩
  | (k, x) :: r => by
    obtain ⟨h1, h2, h3⟩ := copy_fresh n x
    obtain ⟨h4, h5, h6⟩ := copyAll_fresh (copy n x).1 r
    simp only [copyAll]
    refine ⟨by omega, ?_, ?_⟩
    · intro i p b l hp
      cases i with
      | zero => have := h2 p b l hp; omega
      | succ i => have := h5 i p b l hp; omega
    · intro i j p q b l l' hp hq
      cases i with
      | zero =>
        cases j with
        | zero => exact ⟨rfl, h3 p q b l l' hp hq⟩
        | succ j => have := h2 p b l hp; have := h5 j q b l' hq; omega
      | succ i =>
        cases j with
        | zero => have := h5 i p b l hp; have := h2 q b l' hq; omega
        | succ j =>
          obtain ⟨e1, e2⟩ := h6 i j p q b l l' hp hq
          exact ⟨by omega, e2⟩
end

theorem copyAll_length (n : Nat) (cs : List (Str × BN)) : (copyAll n cs).2.length = cs.length := by
  induction cs generalizing n with
  | nil => rfl
  | cons kx r ih => obtain ⟨k, x⟩ := kx; simp only [copyAll, List.length_cons, ih]

/-- Children and one more whose blocks are others. -/
theorem snoc_info (cs : List (Str × BN)) (k : Str) (z : BN) (i : Nat) (p : List Nat) :
    ((cs ++ [(k, z)])[i]?.bind fun kx => info p kx.2) =
      if i < cs.length then cs[i]?.bind fun kx => info p kx.2 else if i = cs.length then info p z else none := by
  by_cases h : i < cs.length
  · rw [if_pos h, List.getElem?_append_left h]
  · rw [if_neg h, List.getElem?_append_right (by omega)]
    by_cases h' : i = cs.length
    · subst h'; simp
    · rw [if_neg h', List.getElem?_eq_none (by simp; omega)]; rfl

theorem uniqAll_snoc {cs : List (Str × BN)} {k : Str} {z : BN} (h : UniqAll cs) (hz : Uniq z)
    (hd : ∀ (i : Nat) (p q : List Nat) (b l l' : Nat), (cs[i]?.bind fun kx => info p kx.2) = some (b, l) → info q z = some (b, l') → False) :
    UniqAll (cs ++ [(k, z)]) := by
  intro i j p q b l l' hp hq
  rw [snoc_info] at hp hq
  split at hp
  · split at hq
    · exact h i j p q b l l' hp hq
    · split at hq
      · exact (hd i p q b l l' hp hq).elim
      · cases hq
  · split at hp
    · split at hq
      · exact (hd j q p b l' l hq hp).elim
      · split at hq
        · exact ⟨by omega, hz p q b l l' hp hq⟩
        · cases hq
    · cases hp

theorem withinAll_snoc {m n : Nat} {cs : List (Str × BN)} {k : Str} {z : BN} (h : WithinAll m n cs) (hz : Within m n z) :
    WithinAll m n (cs ++ [(k, z)]) := by
  intro i p b l hp
  rw [snoc_info] at hp
  split at hp
  · exact h i p b l hp
  · split at hp
    · exact hz p b l hp
    · cases hp

/-! ### What a call keeps -/

/-- References to children of the node at `q` are lost. -/
def LostAt : Option (List Nat) → List Nat → Prop
  | none, _ => False
  | some l, q => l <+: q

/-- The node `y` comes from `x`: blocks below `n` are where they were, unless they are lost, and others are new. -/
structure Comes (n n' : Nat) (x y : BN) (lost : Option (List Nat)) : Prop where
  next : n ≤ n'
  uniq : Uniq y
  within : Within 0 n' y
  old : ∀ q b l, info q y = some (b, l) → b < n → (∃ l0, info q x = some (b, l0) ∧ l0 ≤ l) ∧ ¬ LostAt lost q
  kept : ∀ q b l, info q x = some (b, l) → ¬ LostAt lost q → ∃ l', info q y = some (b, l') ∧ l ≤ l'

theorem Comes.same {n : Nat} {x y : BN} (hu : Uniq x) (hw : Within 0 n x) (h : ∀ q, info q y = info q x) : Comes n n x y none := by
  refine ⟨Nat.le_refl _, ?_, ?_, ?_, ?_⟩
  · intro p q b l l' hp hq
    rw [h] at hp hq
    exact hu p q b l l' hp hq
  · intro p b l hp
    rw [h] at hp
    exact hw p b l hp
  · intro q b l hq _
    rw [h] at hq
    exact ⟨⟨l, hq, Nat.le_refl _⟩, fun h => h⟩
  · intro q b l hq _
    exact ⟨l, by rw [h]; exact hq, Nat.le_refl _⟩

/-- A node all of whose blocks are new. -/
theorem Comes.fresh {n n' : Nat} {x y : BN} (hn : n ≤ n') (hu : Uniq y) (hw : Within n n' y) : Comes n n' x y (some []) := by
  refine ⟨hn, hu, hw.mono (by omega) (Nat.le_refl _), ?_, ?_⟩
  · intro q b l hq hb
    have := hw q b l hq
    omega
  · intro q b l _ h
    exact (h ⟨q, rfl⟩).elim

theorem uniq_children {a : Bool} {v : Str} {b c : Nat} {cs : List (Str × BN)} (h : Uniq (mk a v b c cs)) : UniqAll cs := by
  intro i j p q b' l l' hp hq
  have := h (i :: p) (j :: q) b' l l' (by rw [info_cons]; exact hp) (by rw [info_cons]; exact hq)
  simpa using this

theorem within_children {m n : Nat} {a : Bool} {v : Str} {b c : Nat} {cs : List (Str × BN)} (h : Within m n (mk a v b c cs)) : WithinAll m n cs := by
  intro i p b' l hp
  exact h (i :: p) b' l (by rw [info_cons]; exact hp)

theorem comes_push {m n : Nat} {a a' : Bool} {v : Str} {b c : Nat} {cs : List (Str × BN)} {key : Str} {z : BN} (hmn : m ≤ n)
    (hu : Uniq (mk a v b c cs)) (hw : Within 0 m (mk a v b c cs)) (hz : Uniq z) (hzw : Within m n z) :
    Comes m (push key z n (mk a' v b c cs)).1 (mk a v b c cs) (push key z n (mk a' v b c cs)).2
      (if c ≤ cs.length then some [] else none) := by
  have hb : b < m := (hw [] b cs.length rfl).2
  by_cases h : cs.length < c
  · simp only [push, if_pos h]
    rw [if_neg (by omega)]
    have hd : ∀ (i : Nat) (p q : List Nat) (b l l' : Nat), (cs[i]?.bind fun kx => info p kx.2) = some (b, l) → info q z = some (b, l') → False := by
      intro i p q b l l' h1 h2
      have := within_children hw i p b l h1
      have := hzw q b l' h2
      omega
    have hinfo : ∀ q b' l, info q (mk a' v b c (cs ++ [(key, z)])) = some (b', l) → b' < m →
        ∃ l0, info q (mk a v b c cs) = some (b', l0) ∧ l0 ≤ l := by
      intro q b' l hq hb'
      cases q with
      | nil => cases hq; exact ⟨cs.length, rfl, by simp [children]⟩
      | cons i q =>
        rw [info_cons] at hq ⊢
        simp only [children] at hq ⊢
        rw [snoc_info] at hq
        split at hq
        · exact ⟨l, hq, Nat.le_refl _⟩
        · split at hq
          · have := hzw q b' l hq; omega
          · cases hq
    refine ⟨hmn, ?_, ?_, fun q b' l hq hb' => ⟨hinfo q b' l hq hb', fun h => h⟩, ?_⟩
    · refine uniq_mk ?_ (uniqAll_snoc (uniq_children hu) hz hd)
      intro i p l hp
      rw [snoc_info] at hp
      split at hp
      · have := hu [] (i :: p) b cs.length l rfl (by rw [info_cons]; exact hp)
        cases this
      · split at hp
        · have := hzw p b l hp; omega
        · cases hp
    · refine within_mk (by omega) (withinAll_snoc ((within_children hw).mono (Nat.le_refl _) hmn) (hzw.mono (by omega) (Nat.le_refl _)))
    · intro q b' l hq _
      cases q with
      | nil => cases hq; exact ⟨cs.length + 1, by simp [info_nil, block, children], by simp [children]⟩
      | cons i q =>
        rw [info_cons] at hq ⊢
        simp only [children] at hq ⊢
        refine ⟨l, ?_, Nat.le_refl _⟩
        rw [snoc_info]
        have : i < cs.length := by
          rcases Nat.lt_or_ge i cs.length with h | h
          · exact h
          · rw [List.getElem?_eq_none h] at hq; cases hq
        rw [if_pos this]
        exact hq
  · simp only [push, if_neg h]
    rw [if_pos (by omega)]
    obtain ⟨h1, h2, h3⟩ := copyAll_fresh (n + 1) cs
    refine Comes.fresh (by omega) ?_ ?_
    · refine uniq_mk ?_ (uniqAll_snoc h3 hz ?_)
      · intro i p l hp
        rw [snoc_info] at hp
        split at hp
        · have := h2 i p n l hp; omega
        · split at hp
          · have := hzw p n l hp; omega
          · cases hp
      · intro i p q b' l l' e1 e2
        have := h2 i p b' l e1
        have := hzw q b' l' e2
        omega
    · exact within_mk (by omega) (withinAll_snoc (h2.mono (by omega) (Nat.le_refl _)) (hzw.mono (Nat.le_refl _) (by omega)))

/-! ### Without blocks -/

theorem toVNAll_eq (cs : List (Str × BN)) : toVNAll cs = cs.map fun kx => (kx.1, kx.2.toVN) := by
  induction cs with
  | nil => rfl
  | cons kx r ih => obtain ⟨k, x⟩ := kx; simp only [toVNAll, ih, List.map_cons]

mutual
theorem toVN_copy (n : Nat) : ∀ x : BN, (copy n x).2.toVN = x.toVN.copy
  | mk a v b c cs => by simp only [copy, toVN, VN.copy, toVNAll_copy (n + 1) cs, toVNAll_eq, List.length_map]
theorem toVNAll_copy (n : Nat) : ∀ cs : List (Str × BN), toVNAll (copyAll n cs).2 = VN.copyAll (toVNAll cs)
  | [] => rfl
  | (k, x) :: r => by simp only [copyAll, toVNAll, VN.copyAll, toVN_copy n x, toVNAll_copy (copy n x).1 r]
end

theorem toVN_push (key : Str) (z : BN) (n : Nat) (a : Bool) (v : Str) (b c : Nat) (cs : List (Str × BN)) :
    (push key z n (mk a v b c cs)).2.toVN =
      VN.mk a v (VN.append c (toVNAll cs) (key, z.toVN)).1 (VN.append c (toVNAll cs) (key, z.toVN)).2 := by
  have hl : (toVNAll cs).length = cs.length := by rw [toVNAll_eq, List.length_map]
  simp only [push, VN.append, hl]
  split
  · simp only [toVN, toVNAll_eq, List.map_append, List.map_cons, List.map_nil]
  · simp only [toVN, toVNAll_eq, List.map_append, List.map_cons, List.map_nil]
    rw [← toVNAll_eq, toVNAll_copy, toVNAll_eq]

theorem findIdx_toVN (key : Str) (cs : List (Str × BN)) : VN.findIdx key (toVNAll cs) = findIdx key cs := by
  induction cs with
  | nil => rfl
  | cons kx r ih => obtain ⟨k, x⟩ := kx; simp only [toVNAll, VN.findIdx, findIdx, ih]

theorem findIdx_lt {key : Str} {cs : List (Str × BN)} {i : Nat} (h : findIdx key cs = some i) : i < cs.length := by
  induction cs generalizing i with
  | nil => cases h
  | cons kx r ih =>
    obtain ⟨k, x⟩ := kx
    simp only [findIdx] at h
    split at h
    · cases h; simp
    · cases h' : findIdx key r with
      | none => rw [h'] at h; cases h
      | some j =>
        rw [h'] at h
        cases h
        have := ih h'
        simpa using this

theorem modifyAt_eq (f : VN → VN) (i : Nat) (cs : List (Str × VN)) : VN.modifyAt f i cs = cs.modify i fun kx => (kx.1, f kx.2) := by
  induction cs generalizing i with
  | nil => cases i <;> rfl
  | cons kx r ih =>
    obtain ⟨k, x⟩ := kx
    cases i with
    | zero => rfl
    | succ i => simp only [VN.modifyAt, ih, List.modify_succ_cons]

theorem map_modify_toVN (f : BN → BN) (g : VN → VN) (h : ∀ x, (f x).toVN = g x.toVN) (i : Nat) (cs : List (Str × BN)) :
    toVNAll (cs.modify i fun kx => (kx.1, f kx.2)) = (toVNAll cs).modify i fun kx => (kx.1, g kx.2) := by
  rw [toVNAll_eq, toVNAll_eq]
  induction cs generalizing i with
  | nil => cases i <;> rfl
  | cons kx r ih =>
    cases i with
    | zero => simp [h]
    | succ i => simp only [List.modify_succ_cons, List.map_cons, ih]

theorem toVN_access (x : BN) : x.access.toVN = x.toVN.access := by cases x; rfl

theorem nodeAt_toVN (p : List Nat) (t : BN) : VN.nodeAt p t.toVN = (nodeAt p t).map toVN := by
  induction p generalizing t with
  | nil => rfl
  | cons i p ih =>
    obtain ⟨a, v, b, c, cs⟩ := t
    simp only [VN.nodeAt, nodeAt, toVN, VN.children, children, toVNAll_eq, List.getElem?_map]
    cases cs[i]? with
    | none => rfl
    | some kx => exact ih kx.2

theorem replaceAt_toVN (y : BN) (p : List Nat) (t : BN) : (replaceAt y p t).toVN = VN.replaceAt y.toVN p t.toVN := by
  induction p generalizing t with
  | nil => rfl
  | cons i p ih =>
    obtain ⟨a, v, b, c, cs⟩ := t
    simp only [VN.replaceAt, replaceAt, toVN]
    rw [map_modify_toVN _ _ (fun x => ih x)]

/-! ### Calls on one node -/

theorem length_toVNAll (cs : List (Str × BN)) : (toVNAll cs).length = cs.length := by rw [toVNAll_eq, List.length_map]

/-- A child is changed into one with the same blocks. -/
theorem info_modify_same (f : BN → BN) (hf : ∀ x q, info q (f x) = info q x) (i j : Nat) (p : List Nat) (cs : List (Str × BN)) :
    ((cs.modify i fun kx => (kx.1, f kx.2))[j]?.bind fun kx => info p kx.2) = cs[j]?.bind fun kx => info p kx.2 := by
  rw [List.getElem?_modify]
  cases cs[j]? with
  | none => rfl
  | some kx =>
    simp only [Option.map_some, Option.bind_some]
    split
    · exact hf kx.2 p
    · rfl

theorem info_flag (a a' : Bool) (v v' : Str) (b c : Nat) (cs : List (Str × BN)) (q : List Nat) :
    info q (mk a' v' b c cs) = info q (mk a v b c cs) := by
  cases q with
  | nil => rfl
  | cons i q => rw [info_cons, info_cons]; rfl

theorem info_access (x : BN) (q : List Nat) : info q x.access = info q x := by
  cases x; exact info_flag _ _ _ _ _ _ _ _

/-- The relation between what a call on a node of the code does and what it does by the specification. -/
structure DidAs (n : Nat) (x : BN) (d : Did) (ch : VN.Change) : Prop where
  node : d.node.toVN = ch.node
  made : d.made = ch.made
  out : d.out = ch.out
  comes : Comes n d.next x d.node ch.lost
  child : ∀ i, d.made = some i → i < d.node.children.length

theorem push_length (key : Str) (z : BN) (n : Nat) (a : Bool) (v : Str) (b c : Nat) (cs : List (Str × BN)) :
    (push key z n (mk a v b c cs)).2.children.length = cs.length + 1 := by
  simp only [push]
  split <;> simp [children, copyAll_length]

theorem act_push {n : Nat} {a a' : Bool} {v : Str} {b c : Nat} {cs : List (Str × BN)} {key : Str} {z : BN} {m : Nat} {zv : VN} {made : Option Nat}
    (hmade : ∀ i, made = some i → i = cs.length)
    (hu : Uniq (mk a v b c cs)) (hw : Within 0 n (mk a v b c cs)) (hz : Uniq z) (hn : n ≤ m) (hzw : Within n m z) (hzv : z.toVN = zv.move) :
    DidAs n (mk a v b c cs) ⟨(push key z m (mk a' v b c cs)).1, (push key z m (mk a' v b c cs)).2, made, none⟩
      ⟨VN.pushMove key zv (mk a' v b c cs).toVN, made, none, VN.lostIf (mk a v b c cs).toVN.full⟩ := by
  refine ⟨?_, rfl, rfl, ?_, ?_⟩
  · rw [toVN_push, hzv]; rfl
  · have := comes_push (a' := a') (key := key) hn hu hw hz hzw
    simpa [VN.lostIf, VN.full, toVN, VN.cap, VN.children, length_toVNAll] using this
  · intro i hi
    rw [push_length, hmade i hi]
    omega

theorem comes_set {n : Nat} {a : Bool} {v w : Str} {b c : Nat} {cs : List (Str × BN)} {i : Nat}
    (hu : Uniq (mk a v b c cs)) (hw : Within 0 n (mk a v b c cs)) :
    Comes n (n + 1) (mk a v b c cs)
      (mk true v b c (cs.modify i fun kx => (kx.1, match kx.2 with | mk a _ _ _ _ => mk a w n 0 []))) (some [i]) := by
  have hb : b < n := (hw [] b cs.length rfl).2
  have hi : ∀ (j : Nat) (p : List Nat),
      ((cs.modify i fun kx => (kx.1, match kx.2 with | mk a _ _ _ _ => mk a w n 0 []))[j]?.bind fun kx => info p kx.2) =
        if i = j then (cs[j]?.bind fun _ => if p = [] then some (n, 0) else none) else cs[j]?.bind fun kx => info p kx.2 := by
    intro j p
    rw [List.getElem?_modify]
    cases cs[j]? with
    | none => simp
    | some kx =>
      by_cases hij : i = j
      · obtain ⟨k, a', v', b', c', cs'⟩ := kx
        simp only [if_pos hij, Option.map_some, Option.bind_some]
        cases p with
        | nil => rfl
        | cons m p => rfl
      · simp only [if_neg hij]; rfl
  have hnew : ∀ (j : Nat) (p : List Nat) (b' l : Nat),
      (if i = j then (cs[j]?.bind fun _ => if p = [] then some (n, 0) else none) else cs[j]?.bind fun kx => info p kx.2) = some (b', l) →
        (i = j ∧ p = [] ∧ b' = n) ∨ (i ≠ j ∧ info (j :: p) (mk a v b c cs) = some (b', l)) := by
    intro j p b' l h
    split at h
    · rename_i hij
      refine Or.inl ⟨hij, ?_⟩
      cases hc : cs[j]? with
      | none => rw [hc] at h; cases h
      | some kx =>
        rw [hc] at h
        simp only [Option.bind_some] at h
        split at h
        · cases h; exact ⟨by assumption, rfl⟩
        · cases h
    · rename_i hij
      exact Or.inr ⟨hij, by rw [info_cons]; exact h⟩
  refine ⟨by omega, ?_, ?_, ?_, ?_⟩
  · refine uniq_mk ?_ ?_
    · intro j p l hp
      rw [hi] at hp
      rcases hnew j p b l hp with ⟨-, -, h⟩ | ⟨-, h⟩
      · omega
      · have := hu [] (j :: p) b cs.length l rfl h
        cases this
    · intro j j' p q b' l l' hp hq
      rw [hi] at hp hq
      rcases hnew j p b' l hp with ⟨e1, e2, e3⟩ | ⟨e1, h1⟩
      · rcases hnew j' q b' l' hq with ⟨f1, f2, f3⟩ | ⟨f1, h2⟩
        · exact ⟨by omega, by rw [e2, f2]⟩
        · have := hw _ _ _ h2; omega
      · rcases hnew j' q b' l' hq with ⟨f1, f2, f3⟩ | ⟨f1, h2⟩
        · have := hw _ _ _ h1; omega
        · have := hu _ _ _ _ _ h1 h2
          simpa using this
  · refine within_mk (by omega) ?_
    intro j p b' l hp
    rw [hi] at hp
    rcases hnew j p b' l hp with ⟨-, -, h⟩ | ⟨-, h⟩
    · omega
    · have := hw _ _ _ h; omega
  · intro q b' l hq hb'
    cases q with
    | nil =>
      cases hq
      refine ⟨⟨cs.length, rfl, by simp [children]⟩, ?_⟩
      intro h
      exact absurd (List.IsPrefix.length_le h) (by simp)
    | cons j q =>
      rw [info_cons] at hq
      simp only [children] at hq
      rw [hi] at hq
      rcases hnew j q b' l hq with ⟨-, -, h⟩ | ⟨hij, h⟩
      · omega
      · refine ⟨⟨l, h, Nat.le_refl _⟩, ?_⟩
        intro hl
        exact hij (List.cons_prefix_cons.1 hl).1
  · intro q b' l hq hl
    cases q with
    | nil => cases hq; exact ⟨cs.length, by simp [info_nil, block, children], Nat.le_refl _⟩
    | cons j q =>
      have hij : i ≠ j := fun e => hl (List.cons_prefix_cons.2 ⟨e, List.nil_prefix⟩)
      refine ⟨l, ?_, Nat.le_refl _⟩
      rw [info_cons] at hq ⊢
      simp only [children] at hq ⊢
      rw [hi, if_neg hij]
      exact hq

theorem act_as {n : Nat} {x : BN} (hu : Uniq x) (hw : Within 0 n x) (other : Option BN) (a : NodeAct) :
    Agree (DidAs n x) (act n other a x) (VN.change (other.map toVN) a x.toVN) := by
  obtain ⟨f, v, b, c, cs⟩ := x
  have hl : (toVNAll cs).length = cs.length := length_toVNAll cs
  have hvc : (mk f v b c cs).toVN.children = toVNAll cs := rfl
  have hlen : (mk f v b c cs).toVN.children.length = cs.length := by rw [hvc, hl]
  cases a with
  | pushBack key =>
    simp only [act, VN.change, hlen]
    exact act_push (by simp [children]) hu hw (uniq_leaf _ _) (by omega) (within_leaf _ _) rfl
  | pushCopy key o =>
    cases other with
    | none => trivial
    | some y =>
      obtain ⟨h1, h2, h3⟩ := copy_fresh n y
      simp only [act, VN.change, hlen, Option.map_some]
      have := act_push (key := key) (zv := y.toVN.copy) (made := some cs.length) (a' := f) (by simp) hu hw h3 (Nat.le_of_lt h1) h2
        (by rw [toVN_copy]; cases y; rfl)
      exact this
  | getOrAdd key =>
    simp only [act, VN.change, findIdx_toVN, VN.getOrAdd, toVN, VN.children]
    cases hk : findIdx key cs with
    | none =>
      simp only [hl]
      exact act_push (by simp) hu hw (uniq_leaf _ _) (by omega) (within_leaf _ _) rfl
    | some i =>
      refine ⟨?_, rfl, rfl, ?_, ?_⟩
      · simp only [toVN]
        rw [map_modify_toVN _ _ toVN_access, modifyAt_eq]
      · refine Comes.same hu hw ?_
        intro q
        cases q with
        | nil => simp [info_nil, block, children]
        | cons j q => rw [info_cons, info_cons]; exact info_modify_same _ info_access _ _ _ _
      · intro j hj
        cases hj
        simpa [children] using findIdx_lt hk
  | getChild key =>
    simp only [act, VN.change, hvc, findIdx_toVN]
    cases hk : findIdx key cs with
    | none => rfl
    | some i =>
      refine ⟨rfl, rfl, rfl, Comes.same hu hw (fun q => info_flag _ _ _ _ _ _ _ _), ?_⟩
      intro j hj
      cases hj
      exact findIdx_lt hk
  | getIndex i =>
    simp only [act, VN.change, hlen]
    by_cases h : i < cs.length
    · rw [if_pos h, if_pos h]
      refine ⟨rfl, rfl, rfl, Comes.same hu hw (fun q => info_flag _ _ _ _ _ _ _ _), ?_⟩
      intro j hj
      cases hj
      exact h
    · rw [if_neg h, if_neg h]; rfl
  | setValue w =>
    exact ⟨rfl, rfl, rfl, Comes.same hu hw (fun q => info_flag _ _ _ _ _ _ _ _), by intro i hi; cases hi⟩
  | set key w =>
    simp only [act, VN.change, findIdx_toVN, VN.setValue, toVN, VN.children]
    cases hk : findIdx key cs with
    | none => exact act_push (by simp) hu hw (uniq_leaf _ _) (by omega) (within_leaf _ _) rfl
    | some i =>
      refine ⟨?_, rfl, rfl, comes_set hu hw, by intro j hj; cases hj⟩
      simp only [toVN]
      rw [modifyAt_eq]
      congr 1
      exact map_modify_toVN (fun y => match y with | mk a _ _ _ _ => mk a w n 0 []) (fun y => VN.assignMove y (VN.leaf w))
        (by intro y; cases y; rfl) i cs
  | reserve m =>
    by_cases h : c < m
    · have hch : VN.change (other.map toVN) (.reserve m) (mk f v b c cs).toVN =
          .ok ⟨VN.mk f v m (VN.copyAll (toVNAll cs)), none, none, some []⟩ := by
        simp [VN.change, VN.lostIf, VN.reserve, toVN, VN.cap, h]
      rw [hch]
      simp only [act, reserve, if_pos h]
      obtain ⟨h1, h2, h3⟩ := copyAll_fresh (n + 1) cs
      refine ⟨by simp only [toVN, toVNAll_copy], rfl, rfl, ?_, by intro i hi; cases hi⟩
      refine Comes.fresh (n' := (copyAll (n + 1) cs).1) (by omega) (uniq_mk ?_ h3) (within_mk ⟨Nat.le_refl n, by omega⟩ (h2.mono (by omega) (Nat.le_refl _)))
      intro i p l hp
      have := h2 i p n l hp
      omega
    · have hch : VN.change (other.map toVN) (.reserve m) (mk f v b c cs).toVN = .ok ⟨VN.mk f v c (toVNAll cs), none, none, none⟩ := by
        simp [VN.change, VN.lostIf, VN.reserve, toVN, VN.cap, h]
      rw [hch]
      simp only [act, reserve, if_neg h]
      exact ⟨rfl, rfl, rfl, Comes.same hu hw (fun _ => rfl), by intro i hi; cases hi⟩
  | clear =>
    refine ⟨rfl, rfl, rfl, Comes.fresh (by simp only [clear]; omega) (uniq_mk (by simp) uniqAll_nil) (within_mk ?_ (withinAll_nil _ _)), by intro i hi; cases hi⟩
    simp only [clear]
    omega
  | read =>
    exact ⟨rfl, rfl, rfl, Comes.same hu hw (fun q => info_flag _ _ _ _ _ _ _ _), by intro i hi; cases hi⟩

/-! ### The whole tree -/

theorem info_append {p s : List Nat} {t x : BN} (h : nodeAt p t = some x) : info (p ++ s) t = info s x := by
  induction p generalizing t with
  | nil => cases h; rfl
  | cons i p ih =>
    rw [nodeAt] at h
    rw [List.cons_append, info_cons]
    cases hc : t.children[i]? with
    | none => rw [hc] at h; cases h
    | some kx => rw [hc] at h; exact ih h

theorem info_replace {p : List Nat} {t x : BN} (y : BN) (h : nodeAt p t = some x) (q : List Nat) :
    info q (replaceAt y p t) = if p <+: q then info (q.drop p.length) y else info q t := by
  induction p generalizing t q with
  | nil => rw [if_pos List.nil_prefix]; rfl
  | cons i p ih =>
    obtain ⟨a, v, b, c, cs⟩ := t
    rw [nodeAt] at h
    simp only [children] at h
    cases q with
    | nil =>
      rw [if_neg (fun h => absurd (List.IsPrefix.length_le h) (by simp))]
      simp [replaceAt, info_nil, block, children]
    | cons j q =>
      simp only [replaceAt, info_cons, children]
      rw [List.getElem?_modify]
      by_cases hij : i = j
      · subst hij
        cases hc : cs[i]? with
        | none => rw [hc] at h; cases h
        | some kx =>
          rw [hc] at h
          simp only [if_pos, Option.bind_some, List.cons_prefix_cons, true_and, List.length_cons, List.drop_succ_cons]
          exact ih h q
      · rw [if_neg (fun h => hij (List.cons_prefix_cons.1 h).1)]
        simp [hij]

theorem nodeAt_replace {p : List Nat} {t x : BN} (y : BN) (h : nodeAt p t = some x) : nodeAt p (replaceAt y p t) = some y := by
  induction p generalizing t with
  | nil => rfl
  | cons i p ih =>
    obtain ⟨a, v, b, c, cs⟩ := t
    rw [nodeAt] at h
    simp only [children] at h
    simp only [replaceAt, nodeAt, children]
    rw [List.getElem?_modify]
    cases hc : cs[i]? with
    | none => rw [hc] at h; cases h
    | some kx => rw [hc] at h; simpa using ih h

theorem nodeAt_other {p q : List Nat} (y t : BN) (h1 : ¬ p <+: q) (h2 : ¬ q <+: p) : nodeAt q (replaceAt y p t) = nodeAt q t := by
  induction p generalizing q t with
  | nil => exact absurd List.nil_prefix h1
  | cons i p ih =>
    cases q with
    | nil => exact absurd List.nil_prefix h2
    | cons j q =>
      obtain ⟨a, v, b, c, cs⟩ := t
      simp only [replaceAt, nodeAt, children]
      rw [List.getElem?_modify]
      by_cases hij : i = j
      · subst hij
        cases cs[i]? with
        | none => rfl
        | some kx =>
          have := ih (q := q) kx.2 (fun h => h1 (List.cons_prefix_cons.2 ⟨rfl, h⟩)) (fun h => h2 (List.cons_prefix_cons.2 ⟨rfl, h⟩))
          simpa using this
      · simp [hij]

theorem _root_.Flut.VN.nodeAt_replace {p : List Nat} {t x : VN} (y : VN) (h : VN.nodeAt p t = some x) :
    VN.nodeAt p (VN.replaceAt y p t) = some y := by
  induction p generalizing t with
  | nil => rfl
  | cons i p ih =>
    obtain ⟨a, v, c, cs⟩ := t
    rw [VN.nodeAt] at h
    simp only [VN.children] at h
    simp only [VN.replaceAt, VN.nodeAt, VN.children]
    rw [List.getElem?_modify]
    cases hc : cs[i]? with
    | none => rw [hc] at h; cases h
    | some kx => rw [hc] at h; simpa using ih h

theorem uniq_sub {p : List Nat} {t x : BN} (h : nodeAt p t = some x) (hu : Uniq t) : Uniq x := by
  intro q q' b l l' h1 h2
  have := hu (p ++ q) (p ++ q') b l l' (by rw [info_append h]; exact h1) (by rw [info_append h]; exact h2)
  exact List.append_cancel_left this

theorem within_sub {m n : Nat} {p : List Nat} {t x : BN} (h : nodeAt p t = some x) (hw : Within m n t) : Within m n x := by
  intro q b l h1
  exact hw (p ++ q) b l (by rw [info_append h]; exact h1)

/-- References that are lost in the whole tree. -/
def lostBelow (p : List Nat) : Option (List Nat) → Option (List Nat)
  | none => none
  | some l => some (p ++ l)

theorem lostAt_append (p : List Nat) (lost : Option (List Nat)) (q : List Nat) :
    LostAt (lostBelow p lost) (p ++ q) ↔ LostAt lost q := by
  cases lost with
  | none => exact Iff.rfl
  | some l => exact List.prefix_append_right_inj p

theorem lostAt_prefix {p : List Nat} {lost : Option (List Nat)} {q : List Nat} (h : LostAt (lostBelow p lost) q) : p <+: q := by
  cases lost with
  | none => exact h.elim
  | some l => exact (List.prefix_append p l).trans h

/-- What is true of the node is true of the tree. -/
theorem Comes.tree {n n' : Nat} {t x y : BN} {p : List Nat} {lost : Option (List Nat)} (hp : nodeAt p t = some x) (hu : Uniq t) (hw : Within 0 n t)
    (h : Comes n n' x y lost) : Comes n n' t (replaceAt y p t) (lostBelow p lost) := by
  have hold : ∀ q b l, info q (replaceAt y p t) = some (b, l) → b < n →
      (∃ l0, info q t = some (b, l0) ∧ l0 ≤ l) ∧ ¬ LostAt (lostBelow p lost) q := by
    intro q b l hq hb
    rw [info_replace y hp] at hq
    split at hq
    · rename_i hpq
      obtain ⟨s, rfl⟩ := hpq
      rw [List.drop_left] at hq
      obtain ⟨⟨l0, h1, h2⟩, h3⟩ := h.old s b l hq hb
      exact ⟨⟨l0, by rw [info_append hp]; exact h1, h2⟩, fun hl => h3 ((lostAt_append _ _ _).1 hl)⟩
    · rename_i hpq
      exact ⟨⟨l, hq, Nat.le_refl _⟩, fun hl => hpq (lostAt_prefix hl)⟩
  refine ⟨h.next, ?_, ?_, hold, ?_⟩
  · intro q q' b l l' h1 h2
    by_cases hb : b < n
    · obtain ⟨⟨l0, e1, -⟩, -⟩ := hold q b l h1 hb
      obtain ⟨⟨l1, e2, -⟩, -⟩ := hold q' b l' h2 hb
      exact hu q q' b l0 l1 e1 e2
    · rw [info_replace y hp] at h1 h2
      split at h1
      · split at h2
        · rename_i e1 e2
          obtain ⟨s, rfl⟩ := e1
          obtain ⟨s', rfl⟩ := e2
          rw [List.drop_left] at h1 h2
          rw [h.uniq s s' b l l' h1 h2]
        · exact absurd (hw q' b l' h2).2 hb
      · exact absurd (hw q b l h1).2 hb
  · intro q b l hq
    rw [info_replace y hp] at hq
    split at hq
    · exact h.within _ b l hq
    · have := hw q b l hq
      have := h.next
      omega
  · intro q b l hq hl
    rw [info_replace y hp]
    split
    · rename_i hpq
      obtain ⟨s, rfl⟩ := hpq
      rw [List.drop_left]
      rw [info_append hp] at hq
      exact h.kept s b l hq (fun hl' => hl ((lostAt_append _ _ _).2 hl'))
    · exact ⟨l, hq, Nat.le_refl _⟩

mutual
theorem locate_sound (b : Nat) : ∀ (t : BN) (p : List Nat), locate b t = some p → ∃ l, info p t = some (b, l)
  | mk a v b' c cs, p, h => by
    simp only [locate] at h
    split at h
    · rename_i e
      cases h
      exact ⟨cs.length, by rw [e]; rfl⟩
    · obtain ⟨j, q, l, rfl, h2⟩ := locateAll_sound b 0 cs p h
      refine ⟨l, ?_⟩
      rw [info_cons]
      simpa [children] using h2
theorem locateAll_sound (b : Nat) : ∀ (i : Nat) (cs : List (Str × BN)) (p : List Nat), locateAll b i cs = some p →
    ∃ j q l, p = (i + j) :: q ∧ (cs[j]?.bind fun kx => info q kx.2) = some (b, l)
  | i, [], p, h => by simp [locateAll] at h
  | i, (k, x) :: r, p, h => by
    simp only [locateAll] at h
    cases hx : locate b x with
    | some q =>
      rw [hx] at h
      cases h
      obtain ⟨l, hl⟩ := locate_sound b x q hx
      exact ⟨0, q, l, rfl, hl⟩
    | none =>
      rw [hx] at h
      obtain ⟨j, q, l, rfl, h2⟩ := locateAll_sound b (i + 1) r p h
      exact ⟨j + 1, q, l, by congr 1; omega, h2⟩
end

mutual
theorem locate_none (b : Nat) : ∀ t : BN, locate b t = none → ∀ p l, info p t ≠ some (b, l)
  | mk a v b' c cs, h => by
    intro p l hp
    simp only [locate] at h
    split at h
    · cases h
    · rename_i hb
      cases p with
      | nil => cases hp; exact hb rfl
      | cons j p => rw [info_cons] at hp; exact locateAll_none b 0 cs h j p l hp
theorem locateAll_none (b : Nat) : ∀ (i : Nat) (cs : List (Str × BN)), locateAll b i cs = none →
    ∀ (j : Nat) (p : List Nat) (l : Nat), (cs[j]?.bind fun kx => info p kx.2) ≠ some (b, l)
  | i, [], _ => by intro j p l hp; simp at hp
  | i, (k, x) :: r, h => by
    intro j p l hp
    simp only [locateAll] at h
    cases hx : locate b x with
    | some q => rw [hx] at h; cases h
    | none =>
      rw [hx] at h
      cases j with
      | zero => exact locate_none b x hx p l hp
      | succ j => exact locateAll_none b (i + 1) r h j p l hp
end

theorem path_some {t : BN} (hu : Uniq t) {b i : Nat} {w : List Nat} {l : Nat} (h : info w t = some (b, l)) (hi : i < l) :
    (NodePtr.elem b i).path t = some (w ++ [i]) := by
  simp only [NodePtr.path]
  cases hl : locate b t with
  | none => exact absurd h (locate_none b t hl w l)
  | some p =>
    obtain ⟨l', hl'⟩ := locate_sound b t p hl
    have := hu w p b l l' h hl'
    subst this
    unfold info at h
    cases hx : nodeAt w t with
    | none => rw [hx] at h; cases h
    | some x =>
      rw [hx] at h
      cases h
      simp only [hx, if_pos hi]

theorem path_none {t : BN} {b i : Nat} (h : ∀ w l, info w t ≠ some (b, l)) : (NodePtr.elem b i).path t = none := by
  simp only [NodePtr.path]
  cases hl : locate b t with
  | none => rfl
  | some p =>
    obtain ⟨l', hl'⟩ := locate_sound b t p hl
    exact absurd hl' (h p l')

end BN

namespace PropRefs

/-- A state of the code, and what it is by the specification. -/
structure Is (s : PropRefs) (σ : PathRefs) : Prop where
  tree : s.tree.toVN = σ.tree
  refs : σ.refs = s.ptrs.map fun q => q.path s.tree
  uniq : s.tree.Uniq
  within : BN.Within 0 s.next s.tree
  ptrs : ∀ b i, NodePtr.elem b i ∈ s.ptrs → b < s.next ∧ ∀ w l, BN.info w s.tree = some (b, l) → i < l

theorem start_is : Is start PathRefs.start := by
  refine ⟨rfl, rfl, BN.uniq_leaf _ _, BN.within_leaf _ _, ?_⟩
  intro b i h
  simp [start] at h

theorem deref_is {s : PropRefs} {σ : PathRefs} (h : Is s σ) (r : Nat) :
    Agree (fun px py => px.1 = py.1 ∧ px.2.toVN = py.2 ∧ BN.nodeAt px.1 s.tree = some px.2) (s.deref r) (σ.deref r) := by
  unfold deref PathRefs.deref
  rw [h.refs, List.getElem?_map]
  cases s.ptrs[r]? with
  | none => trivial
  | some q =>
    simp only [Option.map_some]
    cases q.path s.tree with
    | none => trivial
    | some p =>
      simp only [← h.tree, BN.nodeAt_toVN]
      cases hx : BN.nodeAt p s.tree with
      | none => trivial
      | some x => exact ⟨rfl, rfl, hx⟩

/-- References that are lost. -/
def kept : Option (List Nat) → Option (List Nat) → Option (List Nat)
  | none, q => q
  | some l, q => PathRefs.keep l q

theorem snoc_lost {l w : List Nat} {i : Nat} : (l <+: w ++ [i] ∧ l ≠ w ++ [i]) ↔ l <+: w := by
  constructor
  · rintro ⟨h, hne⟩
    rcases List.prefix_concat_iff.1 h with h | h
    · exact absurd h hne
    · exact h
  · intro h
    refine ⟨h.trans (List.prefix_append _ _), ?_⟩
    intro e
    have := h.length_le
    rw [e] at this
    simp at this
    omega

theorem path_kept {n n' : Nat} {t t' : BN} {lost : Option (List Nat)} (hu : t.Uniq) (hc : BN.Comes n n' t t' lost) {b i : Nat} (hb : b < n)
    (hi : ∀ w l, BN.info w t = some (b, l) → i < l) :
    (NodePtr.elem b i).path t' = kept lost ((NodePtr.elem b i).path t) := by
  cases hl : BN.locate b t with
  | none =>
    have h0 := BN.locate_none b t hl
    rw [BN.path_none h0, BN.path_none]
    · cases lost <;> rfl
    · intro w l hw
      obtain ⟨⟨l0, h1, -⟩, -⟩ := hc.old w b l hw hb
      exact h0 w l0 h1
  | some w =>
    obtain ⟨l, hw⟩ := BN.locate_sound b t w hl
    rw [BN.path_some hu hw (hi w l hw)]
    cases lost with
    | none =>
      obtain ⟨l', h1, h2⟩ := hc.kept w b l hw (fun h => h)
      rw [BN.path_some hc.uniq h1 (Nat.lt_of_lt_of_le (hi w l hw) h2)]
      rfl
    | some m =>
      simp only [kept, PathRefs.keep, snoc_lost]
      split
      · rename_i hm
        refine BN.path_none ?_
        intro w' l' hw'
        obtain ⟨⟨l0, h1, -⟩, h3⟩ := hc.old w' b l' hw' hb
        have := hu w w' b l l0 hw h1
        subst this
        exact h3 hm
      · rename_i hm
        obtain ⟨l', h1, h2⟩ := hc.kept w b l hw hm
        rw [BN.path_some hc.uniq h1 (Nat.lt_of_lt_of_le (hi w l hw) h2)]

theorem root_kept (t t' : BN) (lost : Option (List Nat)) : NodePtr.root.path t' = kept lost (NodePtr.root.path t) := by
  cases lost with
  | none => rfl
  | some m =>
    simp only [NodePtr.path, kept, PathRefs.keep]
    rw [if_neg]
    rintro ⟨h, hne⟩
    exact hne (List.prefix_nil.1 h)

theorem agree_bind {α β α' β' : Type} {R : α → β → Prop} {R' : α' → β' → Prop} {a : Res α} {b : Res β} {f : α → Res α'} {g : β → Res β'}
    (h : Agree R a b) (hf : ∀ x y, R x y → Agree R' (f x) (g y)) : Agree R' (a >>= f) (b >>= g) := by
  cases a <;> cases b <;> first | exact h.elim | exact hf _ _ h | exact h

theorem step_is {s : PropRefs} {σ : PathRefs} (h : Is s σ) (r : Nat) (a : NodeAct) :
    Agree (fun x y => Is x.1 y.1 ∧ x.2 = y.2) (step r a s) (σ.step r a) := by
  unfold step PathRefs.step
  refine agree_bind (deref_is h r) ?_
  rintro ⟨p, x⟩ ⟨p', xv⟩ ⟨e1, e2, hx⟩
  cases e1
  cases e2
  refine agree_bind (R := fun (o : Option BN) ov => o.map BN.toVN = ov) ?_ ?_
  · unfold derefOther PathRefs.derefOther
    cases a.other with
    | none => rfl
    | some o =>
      refine agree_bind (deref_is h o) ?_
      rintro ⟨q, y⟩ ⟨q', yv⟩ ⟨-, e2, -⟩
      exact congrArg some e2
  · rintro o ov ho
    cases ho
    refine agree_bind (BN.act_as (BN.uniq_sub hx h.uniq) (BN.within_sub hx h.within) o a) ?_
    intro d ch hd
    refine ⟨?_, hd.out⟩
    have hc := hd.comes.tree hx h.uniq h.within
    have hroot : BN.info p (BN.replaceAt d.node p s.tree) = some (d.node.block, d.node.children.length) := by
      rw [BN.info_replace _ hx, if_pos (List.prefix_refl _), List.drop_length]
      rfl
    refine ⟨?_, ?_, hc.uniq, hc.within, ?_⟩
    · simp only
      rw [BN.replaceAt_toVN, hd.node, h.tree]
    · simp only [List.map_append]
      congr 1
      · have hk : ∀ q ∈ s.ptrs, q.path (BN.replaceAt d.node p s.tree) = kept (BN.lostBelow p ch.lost) (q.path s.tree) := by
          intro q hq
          cases q with
          | root => exact root_kept _ _ _
          | elem b i => exact path_kept h.uniq hc (h.ptrs b i hq).1 (h.ptrs b i hq).2
        rw [List.map_congr_left hk, h.refs]
        cases ch.lost with
        | none => rfl
        | some l => simp only [List.map_map]; rfl
      · rw [← hd.made]
        cases hm : d.made with
        | none => rfl
        | some i =>
          simp only [Option.map_some, Option.toList_some, List.map_cons, List.map_nil]
          rw [BN.path_some hc.uniq hroot (hd.child i hm)]
    · intro b i hq
      simp only [List.mem_append] at hq
      rcases hq with hq | hq
      · obtain ⟨h1, h2⟩ := h.ptrs b i hq
        refine ⟨Nat.lt_of_lt_of_le h1 hc.next, ?_⟩
        intro w l hw
        obtain ⟨⟨l0, h3, h4⟩, -⟩ := hc.old w b l hw h1
        exact Nat.lt_of_lt_of_le (h2 w l0 h3) h4
      · cases hm : d.made with
        | none => rw [hm] at hq; simp at hq
        | some j =>
          rw [hm] at hq
          simp only [Option.map_some, Option.toList_some, List.mem_singleton] at hq
          cases hq
          refine ⟨(hc.within _ _ _ hroot).2, ?_⟩
          intro w l hw
          have := hc.uniq p w _ _ l hroot hw
          subst this
          rw [hroot] at hw
          cases hw
          exact hd.child i hm

theorem run_is (as : List (Nat × NodeAct)) {s : PropRefs} {σ : PathRefs} (h : Is s σ) :
    Agree (fun x y => Is x.1 y.1 ∧ x.2 = y.2) (run as s) (σ.run as) := by
  induction as generalizing s σ with
  | nil => exact ⟨h, rfl⟩
  | cons ra as ih =>
    obtain ⟨r, a⟩ := ra
    unfold run PathRefs.run
    refine agree_bind (step_is h r a) ?_
    rintro ⟨s', o⟩ ⟨σ', o'⟩ ⟨h', ho⟩
    cases ho
    refine agree_bind (ih h') ?_
    rintro ⟨s'', os⟩ ⟨σ'', os'⟩ ⟨h'', hos⟩
    cases hos
    exact ⟨h'', rfl⟩

/-! ### What references refer to after a call -/

theorem agree_ok {α β : Type} {R : α → β → Prop} {a : α} {b : Res β} (h : Agree R (.ok a) b) : ∃ y, b = .ok y ∧ R a y := by
  cases b with
  | ok y => exact ⟨y, rfl, h⟩
  | throws e => exact h.elim
  | ub => exact h.elim
  | diverges => exact h.elim

theorem reached {as : List (Nat × NodeAct)} {s : PropRefs} {os : List Str} (h : run as start = .ok (s, os)) : ∃ σ, Is s σ := by
  have := run_is as start_is
  rw [h] at this
  obtain ⟨y, -, h', -⟩ := agree_ok this
  exact ⟨y.1, h'⟩

theorem deref_ref {s : PropRefs} {σ : PathRefs} (h : Is s σ) {r : Nat} {q : List Nat} {x : BN} (hd : s.deref r = .ok (q, x)) :
    σ.refs[r]? = some (some q) ∧ BN.nodeAt q s.tree = some x := by
  unfold deref at hd
  rw [h.refs, List.getElem?_map]
  cases hp : s.ptrs[r]? with
  | none => rw [hp] at hd; cases hd
  | some ptr =>
    rw [hp] at hd
    simp only at hd
    cases hq : ptr.path s.tree with
    | none => rw [hq] at hd; cases hd
    | some q' =>
      rw [hq] at hd
      simp only at hd
      cases hx : BN.nodeAt q' s.tree with
      | none => rw [hx] at hd; cases hd
      | some x' =>
        rw [hx] at hd
        cases hd
        exact ⟨by simp [hq], hx⟩

theorem path_node {t : BN} {ptr : NodePtr} {q : List Nat} (h : ptr.path t = some q) : ∃ x, BN.nodeAt q t = some x := by
  cases ptr with
  | root => cases h; exact ⟨t, rfl⟩
  | elem b i =>
    simp only [NodePtr.path] at h
    cases hl : BN.locate b t with
    | none => rw [hl] at h; cases h
    | some p =>
      rw [hl] at h
      simp only at h
      cases hx : BN.nodeAt p t with
      | none => rw [hx] at h; cases h
      | some x =>
        rw [hx] at h
        simp only at h
        split at h
        · rename_i hi
          cases h
          have := BN.info_append (s := [i]) hx
          rw [BN.info_cons, List.getElem?_eq_getElem hi] at this
          unfold BN.info at this
          cases hy : BN.nodeAt (p ++ [i]) t with
          | none => rw [hy] at this; simp [BN.nodeAt] at this
          | some y => exact ⟨y, rfl⟩
        · cases h

theorem ref_deref {s : PropRefs} {σ : PathRefs} (h : Is s σ) {r : Nat} {q : List Nat} (hr : σ.refs[r]? = some (some q)) :
    ∃ x, s.deref r = .ok (q, x) ∧ BN.nodeAt q s.tree = some x := by
  rw [h.refs, List.getElem?_map] at hr
  unfold deref
  cases hp : s.ptrs[r]? with
  | none => rw [hp] at hr; cases hr
  | some ptr =>
    rw [hp] at hr
    have hq : ptr.path s.tree = some q := by simpa using hr
    obtain ⟨x, hx⟩ := path_node hq
    exact ⟨x, by simp only [hq, hx], hx⟩

theorem lost_deref {s : PropRefs} {σ : PathRefs} (h : Is s σ) {r : Nat} (hr : σ.refs[r]? = some none) : s.deref r = .ub := by
  rw [h.refs, List.getElem?_map] at hr
  unfold deref
  cases hp : s.ptrs[r]? with
  | none => rfl
  | some ptr =>
    rw [hp] at hr
    have hq : ptr.path s.tree = none := by simpa using hr
    simp only [hq]

theorem step_refs {s s' : PropRefs} {σ : PathRefs} (h : Is s σ) {r : Nat} {a : NodeAct} {p : List Nat} {y : BN} {o : Option Str}
    (hr : s.deref r = .ok (p, y)) (hs : step r a s = .ok (s', o)) :
    ∃ ov ch σ' z, VN.change ov a y.toVN = .ok ch ∧ Is s' σ' ∧
      σ'.refs = σ.refs.map (kept (BN.lostBelow p ch.lost)) ++ (ch.made.map fun i => some (p ++ [i])).toList ∧
      s'.tree = BN.replaceAt z p s.tree ∧ z.toVN = ch.node ∧ o = ch.out := by
  have h1 := step_is h r a
  rw [hs] at h1
  obtain ⟨⟨σ', o'⟩, h2, h3, h4⟩ := agree_ok h1
  have h5 := deref_is h r
  rw [hr] at h5
  obtain ⟨⟨p', yv⟩, h6, e1, e2, -⟩ := agree_ok h5
  simp only at e1 e2
  subst e1
  subst e2
  unfold PathRefs.step at h2
  rw [h6] at h2
  simp only [Res.bind_ok] at h2
  obtain ⟨ov, -, h2⟩ := Res.bind_eq_ok.1 h2
  obtain ⟨ch, hch, h2⟩ := Res.bind_eq_ok.1 h2
  have e : σ' = ⟨VN.replaceAt ch.node p σ.tree, (match ch.lost with | none => σ.refs | some l => σ.refs.map (PathRefs.keep (p ++ l))) ++
      (ch.made.map fun i => some (p ++ [i])).toList⟩ ∧ o' = ch.out := by
    cases h2; exact ⟨rfl, rfl⟩
  unfold step at hs
  rw [hr] at hs
  simp only [Res.bind_ok] at hs
  obtain ⟨oo, hoo, hs⟩ := Res.bind_eq_ok.1 hs
  obtain ⟨d, hd, hs⟩ := Res.bind_eq_ok.1 hs
  have htree : s'.tree = BN.replaceAt d.node p s.tree := by cases hs; rfl
  have hx := (deref_ref h hr).2
  have hvn : d.node.toVN = ch.node := by
    have e3 : VN.nodeAt p s'.tree.toVN = some d.node.toVN := by
      rw [BN.nodeAt_toVN, htree, BN.nodeAt_replace _ hx]
      rfl
    have e4 : VN.nodeAt p σ.tree = some y.toVN := by rw [← h.tree, BN.nodeAt_toVN, hx]; rfl
    rw [h3.tree] at e3
    simp only at e3
    rw [e.1] at e3
    simp only at e3
    rw [VN.nodeAt_replace _ e4] at e3
    exact (Option.some.inj e3).symm
  refine ⟨ov, ch, σ', d.node, hch, h3, ?_, htree, hvn, ?_⟩
  · rw [e.1]
    cases ch.lost with
    | none =>
      have hk : kept (BN.lostBelow p none) = id := by funext q; rfl
      rw [hk, List.map_id]
    | some l => rfl
  · rw [← e.2]; exact h4

theorem step_deref {s s' : PropRefs} {r : Nat} {a : NodeAct} {o : Option Str} (hs : step r a s = .ok (s', o)) : ∃ p y, s.deref r = .ok (p, y) := by
  unfold step at hs
  obtain ⟨⟨p, y⟩, h, -⟩ := Res.bind_eq_ok.1 hs
  exact ⟨p, y, h⟩

theorem step_lost {s s' : PropRefs} {σ : PathRefs} (h : Is s σ) {r r' : Nat} {a : NodeAct} {o : Option Str} (hr : σ.refs[r]? = some none)
    (hs : step r' a s = .ok (s', o)) : ∃ σ', Is s' σ' ∧ σ'.refs[r]? = some none := by
  obtain ⟨p, y, hr'⟩ := step_deref hs
  obtain ⟨ov, ch, σ', z, h1, h2, h3, -⟩ := step_refs h hr' hs
  refine ⟨σ', h2, ?_⟩
  have hlt : r < σ.refs.length := by
    rcases Nat.lt_or_ge r σ.refs.length with h | h
    · exact h
    · rw [List.getElem?_eq_none h] at hr; cases hr
  rw [h3, List.getElem?_append_left (by simpa using hlt), List.getElem?_map, hr]
  cases ch.lost <;> rfl

theorem run_lost {as : List (Nat × NodeAct)} {s s' : PropRefs} {σ : PathRefs} (h : Is s σ) {r : Nat} {os : List Str} (hr : σ.refs[r]? = some none)
    (hs : run as s = .ok (s', os)) : s'.deref r = .ub := by
  induction as generalizing s σ os with
  | nil => cases hs; exact lost_deref h hr
  | cons ra as ih =>
    obtain ⟨r1, a1⟩ := ra
    unfold run at hs
    obtain ⟨⟨s1, o1⟩, hs1, hs⟩ := Res.bind_eq_ok.1 hs
    obtain ⟨⟨s2, o2⟩, hs2, hs⟩ := Res.bind_eq_ok.1 hs
    obtain ⟨σ1, h1, hr1⟩ := step_lost h hr hs1
    cases hs
    exact ih h1 hr1 hs2

/-- A child is added while there is room. -/
theorem push_room {s : PropRefs} {σ : PathRefs} (h : Is s σ) {r : Nat} {p : List Nat} {y : BN} (hr : s.deref r = .ok (p, y))
    (hroom : y.children.length < y.cap) (key : Str) :
    ∃ s' σ' y', step r (.pushBack key) s = .ok (s', none) ∧ Is s' σ' ∧ σ'.refs = σ.refs ++ [some (p ++ [y.children.length])] ∧
      s'.deref r = .ok (p, y') ∧ y'.children.length = y.children.length + 1 ∧ y'.cap = y.cap := by
  have hs : ∃ s', step r (.pushBack key) s = .ok (s', none) := by
    unfold step
    rw [hr]
    simp only [Res.bind_ok, NodeAct.other, derefOther, BN.act]
    exact ⟨_, rfl⟩
  obtain ⟨s', hs⟩ := hs
  obtain ⟨ov, ch, σ', z, h1, h2, h3, h4, h5, -⟩ := step_refs h hr hs
  obtain ⟨f, v, b, c, cs⟩ := y
  simp only [BN.children, BN.cap] at hroom ⊢
  simp only [VN.change, Res.ok.injEq] at h1
  subst h1
  have hl : (BN.toVNAll cs).length = cs.length := BN.length_toVNAll cs
  have hlost : VN.lostIf (BN.mk f v b c cs).toVN.full = none := by
    simp only [VN.lostIf, VN.full, BN.toVN, VN.cap, VN.children, hl]
    exact if_neg (fun hd => by have := of_decide_eq_true hd; omega)
  simp only [hlost] at h3
  have hk : kept (BN.lostBelow p none) = id := by funext q; rfl
  rw [hk, List.map_id] at h3
  simp only [BN.toVN, VN.children, hl, Option.map_some, Option.toList_some] at h3
  obtain ⟨e1, -⟩ := deref_ref h hr
  have hlt : r < σ.refs.length := by
    rcases Nat.lt_or_ge r σ.refs.length with h | h
    · exact h
    · rw [List.getElem?_eq_none h] at e1; cases e1
  have e2 : σ'.refs[r]? = some (some p) := by rw [h3, List.getElem?_append_left hlt, e1]
  obtain ⟨y', h6, h7⟩ := ref_deref h2 e2
  have hx := (deref_ref h hr).2
  rw [h4, BN.nodeAt_replace _ hx] at h7
  cases h7
  refine ⟨s', σ', z, hs, h2, h3, h6, ?_⟩
  obtain ⟨f', v', b', c', cs'⟩ := z
  simp only [BN.toVN, VN.pushMove, VN.append, hl, if_pos hroom, VN.mk.injEq] at h5
  obtain ⟨-, -, e3, e4⟩ := h5
  refine ⟨?_, e3⟩
  have := congrArg List.length e4
  simpa [BN.length_toVNAll] using this

theorem pushes_room (keys : List Str) {s : PropRefs} {σ : PathRefs} (h : Is s σ) {r : Nat} {p : List Nat} {y : BN} (hr : s.deref r = .ok (p, y))
    (hroom : y.children.length + keys.length ≤ y.cap) :
    ∃ s' σ', run (keys.map fun k => (r, NodeAct.pushBack k)) s = .ok (s', []) ∧ Is s' σ' ∧
      σ'.refs = σ.refs ++ (List.range' y.children.length keys.length).map fun i => some (p ++ [i]) := by
  induction keys generalizing s σ y with
  | nil => exact ⟨s, σ, rfl, h, by simp⟩
  | cons k keys ih =>
    simp only [List.length_cons] at hroom
    obtain ⟨s1, σ1, y1, h1, h2, h3, h4, h5, h6⟩ := push_room h hr (by omega) k
    obtain ⟨s2, σ2, h7, h8, h9⟩ := ih h2 h4 (by omega)
    refine ⟨s2, σ2, ?_, h8, ?_⟩
    · simp only [List.map_cons, run, h1, Res.bind_ok, h7]
      rfl
    · rw [h9, h3, h5, List.append_assoc, List.length_cons, List.range'_succ]
      rfl

end PropRefs

open PropRefs in
theorem change_keeps {ov : Option VN} {a : NodeAct} {y : BN} {ch : VN.Change} (h : VN.change ov a y.toVN = .ok ch) :
    (a.Keeps y → ch.lost = none) ∧ (a.Loses y → ch.lost = some []) := by
  obtain ⟨f, v, b, c, cs⟩ := y
  have hl : (BN.toVNAll cs).length = cs.length := BN.length_toVNAll cs
  cases a with
  | pushBack key =>
    simp only [VN.change, Res.ok.injEq] at h
    subst h
    simp only [NodeAct.Keeps, NodeAct.Loses, BN.cap, BN.children, VN.lostIf, VN.full, BN.toVN, VN.cap, VN.children, hl, decide_eq_true_eq]
    exact ⟨fun h => if_neg (by omega), fun h => if_pos h⟩
  | pushCopy key o =>
    cases ov with
    | none => cases h
    | some z =>
      simp only [VN.change, Res.ok.injEq] at h
      subst h
      simp only [NodeAct.Keeps, NodeAct.Loses, BN.cap, BN.children, VN.lostIf, VN.full, BN.toVN, VN.cap, VN.children, hl, decide_eq_true_eq]
      exact ⟨fun h => if_neg (by omega), fun h => if_pos h⟩
  | getOrAdd key =>
    simp only [VN.change, BN.toVN, VN.children, BN.findIdx_toVN] at h
    simp only [NodeAct.Keeps, NodeAct.Loses, BN.cap, BN.children]
    cases hk : BN.findIdx key cs with
    | none =>
      rw [hk] at h
      simp only [Res.ok.injEq] at h
      subst h
      simp only [VN.lostIf, VN.full, VN.cap, VN.children, hl, decide_eq_true_eq]
      refine ⟨?_, fun h => if_pos h.1⟩
      rintro (h | ⟨i, h⟩)
      · exact if_neg (by omega)
      · cases h
    | some i =>
      rw [hk] at h
      simp only [Res.ok.injEq] at h
      subst h
      exact ⟨fun _ => rfl, fun h => by cases h.2⟩
  | getChild key =>
    simp only [VN.change, BN.toVN, VN.children, BN.findIdx_toVN] at h
    cases hk : BN.findIdx key cs with
    | none => rw [hk] at h; cases h
    | some i =>
      rw [hk] at h
      simp only [Res.ok.injEq] at h
      subst h
      exact ⟨fun _ => rfl, fun h => h.elim⟩
  | getIndex i =>
    simp only [VN.change] at h
    split at h
    · simp only [Res.ok.injEq] at h
      subst h
      exact ⟨fun _ => rfl, fun h => h.elim⟩
    · cases h
  | setValue w => cases h; exact ⟨fun _ => rfl, fun h => h.elim⟩
  | set key w =>
    simp only [VN.change, BN.toVN, VN.children, BN.findIdx_toVN] at h
    simp only [NodeAct.Keeps, NodeAct.Loses, BN.cap, BN.children]
    cases hk : BN.findIdx key cs with
    | none =>
      rw [hk] at h
      simp only [Res.ok.injEq] at h
      subst h
      simp only [VN.lostIf, VN.full, VN.cap, VN.children, hl, decide_eq_true_eq]
      exact ⟨fun h => if_neg (by omega), fun h => if_pos h.1⟩
    | some i => exact ⟨fun h => (by cases h.2), fun h => (by cases h.2)⟩
  | reserve m =>
    simp only [VN.change, Res.ok.injEq] at h
    subst h
    simp only [NodeAct.Keeps, NodeAct.Loses, BN.cap, VN.lostIf, BN.toVN, VN.cap]
    exact ⟨fun h => if_neg (fun hd => by have := of_decide_eq_true hd; omega), fun h => if_pos (decide_eq_true h)⟩
  | clear => cases h; exact ⟨fun h => h.elim, fun _ => rfl⟩
  | read => cases h; exact ⟨fun _ => rfl, fun h => h.elim⟩

end Flut
