import Verif.Spec.PropMemory
import Verif.Proofs.PropApi

/-! # Lemmas: trees with vectors of children -/

namespace Flut

open Spec

namespace VN

theorem copyAll_eq (cs : List (Str × VN)) : copyAll cs = cs.map fun kn => (kn.1, kn.2.copy) := by
  induction cs with
  | nil => rfl
  | cons kn cs ih => simp [copyAll, ih]

@[simp] theorem copyAll_length (cs : List (Str × VN)) : (copyAll cs).length = cs.length := by simp [copyAll_eq]

@[simp] theorem acc_copy (n : VN) : n.copy.acc = false := by cases n; rfl

theorem toPNAll_eq (cs : List (Str × VN)) : toPNAll cs = cs.map fun kn => (kn.1, kn.2.toPN) := by
  induction cs with
  | nil => rfl
  | cons kn cs ih => simp [toPNAll, ih]

mutual
theorem toPN_copy : ∀ n : VN, n.copy.toPN = n.toPN.clear
  | mk a v c cs => by simp only [copy, toPN, PN.clear, toPN_copyAll cs]
theorem toPN_copyAll : ∀ cs : List (Str × VN), toPNAll (copyAll cs) = PN.clearAll (toPNAll cs)
  | [] => rfl
  | (k, n) :: cs => by simp only [copyAll, toPNAll, PN.clearAll, toPN_copy n, toPN_copyAll cs]
end

/-- The content of a tree. -/
def content (n : VN) : PN := n.toPN.clear
def contentAll (cs : List (Str × VN)) : List (Str × PN) := PN.clearAll (toPNAll cs)

theorem content_mk (a : Bool) (v : Str) (c : Nat) (cs : List (Str × VN)) : content (mk a v c cs) = .mk false v (contentAll cs) := rfl

theorem contentAll_cons (k : Str) (n : VN) (cs : List (Str × VN)) : contentAll ((k, n) :: cs) = (k, content n) :: contentAll cs := rfl

theorem contentAll_eq (cs : List (Str × VN)) : contentAll cs = cs.map fun kn => (kn.1, content kn.2) := by
  induction cs with
  | nil => rfl
  | cons kn cs ih => obtain ⟨k, n⟩ := kn; rw [contentAll_cons, ih]; rfl

theorem contentAll_append (cs ds : List (Str × VN)) : contentAll (cs ++ ds) = contentAll cs ++ contentAll ds := by simp [contentAll_eq]

theorem content_copy (n : VN) : content n.copy = content n := by rw [content, toPN_copy, PN.clear_clear]; rfl

theorem contentAll_copy (cs : List (Str × VN)) : contentAll (copyAll cs) = contentAll cs := by simp [contentAll_eq, copyAll_eq, content_copy]

theorem content_move (n : VN) : content n.move = content n := by cases n; rfl
theorem content_access (n : VN) : content n.access = content n := by cases n; rfl
theorem content_assignMove (m n : VN) : content (m.assignMove n) = content n := by cases m; cases n; rfl

mutual
theorem content_assign : ∀ m n : VN, content (m.assign n) = content n
  | mk a v c cs, mk b w d ds => by
    unfold assign
    split
    · rw [content_mk, content_mk, contentAll_copy]
    · rw [content_mk, content_mk, contentAll_assign cs ds]
theorem contentAll_assign : ∀ cs ds : List (Str × VN), contentAll (assignAll cs ds) = contentAll ds
  | [], [] => rfl
  | _ :: _, [] => rfl
  | [], (k, n) :: ds => by rw [assignAll, contentAll_cons, contentAll_cons, content_copy, contentAll_copy]
  | (k', m) :: cs, (k, n) :: ds => by rw [assignAll, contentAll_cons, contentAll_cons, content_assign m n, contentAll_assign cs ds]
end

theorem length_modifyAt (f : VN → VN) (i : Nat) (cs : List (Str × VN)) : (modifyAt f i cs).length = cs.length := by
  induction cs generalizing i with
  | nil => cases i <;> rfl
  | cons kn cs ih => obtain ⟨k, n⟩ := kn; cases i <;> simp [modifyAt, ih]

theorem findIdx_toPN (key : Str) (cs : List (Str × VN)) : PN.findIdx key (toPNAll cs) = findIdx key cs := by
  induction cs with
  | nil => rfl
  | cons kn cs ih => obtain ⟨k, n⟩ := kn; simp only [toPNAll, PN.findIdx, findIdx, ih]

/-- The new content depends on that of the children only. -/
theorem contentAll_modifyAt {f : VN → VN} {g : PN → PN} (h : ∀ n, content (f n) = (g n.toPN).clear) (i : Nat) (cs : List (Str × VN)) :
    contentAll (modifyAt f i cs) = PN.clearAll (PN.modifyAt g i (toPNAll cs)) := by
  induction cs generalizing i with
  | nil => cases i <;> rfl
  | cons kn cs ih =>
    obtain ⟨k, n⟩ := kn
    cases i with
    | zero => rw [modifyAt, contentAll_cons, toPNAll, PN.modifyAt, PN.clearAll, h]; rfl
    | succ i => rw [modifyAt, contentAll_cons, toPNAll, PN.modifyAt, PN.clearAll, ih]; rfl

theorem contentAll_append_one (c : Nat) (cs : List (Str × VN)) (x : Str × VN) :
    contentAll (append c cs x).2 = contentAll cs ++ [(x.1, content x.2)] := by
  unfold append
  split
  · rw [contentAll_append]; rfl
  · rw [contentAll_append, contentAll_copy]; rfl

theorem clearAll_append (cs ds : List (Str × PN)) : PN.clearAll (cs ++ ds) = PN.clearAll cs ++ PN.clearAll ds := by
  simp [PN.clearAll_eq]

theorem content_pushBack (key : Str) (n t : VN) : content (pushBack key n t) = (PN.pushBack key n.toPN t.toPN).clear := by
  obtain ⟨a, v, c, cs⟩ := t
  simp only [pushBack, content_mk, contentAll_append_one, toPN, PN.pushBack, PN.clear, clearAll_append, content_move, content_copy]
  simp [contentAll, content, PN.clearAll, PN.clear_clear]

theorem content_pushMove (key : Str) (n t : VN) : content (pushMove key n t) = (PN.pushBack key n.toPN t.toPN).clear := by
  obtain ⟨a, v, c, cs⟩ := t
  simp only [pushMove, content_mk, contentAll_append_one, toPN, PN.pushBack, PN.clear, clearAll_append, content_move]
  simp [contentAll, content, PN.clearAll, PN.clear_clear]

theorem content_set (key : Str) (n t : VN) : content (set key n t) = (PN.set key n.toPN t.toPN).clear := by
  obtain ⟨a, v, c, cs⟩ := t
  simp only [set, toPN, PN.set, findIdx_toPN]
  cases h : findIdx key cs with
  | none => simp only [content_pushBack, toPN, PN.pushBack]
  | some i =>
    simp only [content_mk, PN.clear]
    rw [contentAll_modifyAt (g := fun x => PN.assign x n.toPN)]
    intro m
    rw [content_assign, PN.clear_assign]; rfl

theorem content_setValue (key : Str) (n t : VN) : content (setValue key n t) = (PN.set key n.toPN t.toPN).clear := by
  obtain ⟨a, v, c, cs⟩ := t
  simp only [setValue, toPN, PN.set, findIdx_toPN]
  cases h : findIdx key cs with
  | none => simp only [content_pushMove, toPN, PN.pushBack]
  | some i =>
    simp only [content_mk, PN.clear]
    rw [contentAll_modifyAt (g := fun x => PN.assign x n.toPN)]
    intro m
    rw [content_assignMove, PN.clear_assign]; rfl

theorem content_getOrAdd (key : Str) (t : VN) : content (getOrAdd key t) = (PN.getOrAddChild key t.toPN).2.clear := by
  obtain ⟨a, v, c, cs⟩ := t
  simp only [getOrAdd, toPN, PN.getOrAddChild, findIdx_toPN]
  cases h : findIdx key cs with
  | none =>
    simp only [content_pushMove, toPN, PN.pushBack]
    rfl
  | some i =>
    simp only [content_mk, PN.clear]
    rw [contentAll_modifyAt (g := PN.access)]
    intro m
    rw [content_access, PN.clear_access]; rfl

theorem content_read (key : Str) (t : VN) : content (read key t) = content t := by
  obtain ⟨a, v, c, cs⟩ := t
  simp only [read]
  cases h : findIdx key cs with
  | none => rfl
  | some i =>
    simp only [content_mk]
    congr 1
    rw [contentAll_modifyAt (g := PN.access) (fun m => by rw [content_access, PN.clear_access]; rfl)]
    have : ∀ (i : Nat) (l : List (Str × PN)), PN.clearAll (PN.modifyAt PN.access i l) = PN.clearAll l := by
      intro i l
      induction l generalizing i with
      | nil => cases i <;> rfl
      | cons kn l ih => obtain ⟨k, n⟩ := kn; cases i <;> simp [PN.modifyAt, PN.clearAll, ih]
    rw [this]; rfl

theorem content_reserve (n : Nat) (t : VN) : content (reserve n t) = content t := by
  obtain ⟨a, v, c, cs⟩ := t
  simp only [reserve]
  split
  · rw [content_mk, content_mk, contentAll_copy]
  · rfl

theorem contentAll_shiftDown (i : Nat) (cs : List (Str × VN)) : contentAll (shiftDown i cs) = (contentAll cs).eraseIdx i := by
  induction cs generalizing i with
  | nil => cases i <;> rfl
  | cons kn cs ih =>
    cases i with
    | zero =>
      obtain ⟨k, m⟩ := kn
      cases cs with
      | nil => rfl
      | cons kn' cs =>
        obtain ⟨k', n⟩ := kn'
        rw [shiftDown, contentAll_cons, content_assignMove, ih 0]
        rfl
    | succ i =>
      obtain ⟨k, m⟩ := kn
      rw [shiftDown, contentAll_cons, ih i]
      rfl

/-! ### Flags -/

theorem at?_cons (i : Nat) (p : List Nat) (a : Bool) (v : Str) (c : Nat) (cs : List (Str × VN)) :
    at? (i :: p) (mk a v c cs) = (cs[i]?).bind fun kn => at? p kn.2 := by
  rw [at?]; cases cs[i]? <;> rfl

theorem flagAt_eq (p : List Nat) (t : VN) : flagAt p t = (at? p t).map acc := by
  unfold flagAt
  cases h : at? p t with
  | none => rfl
  | some n => cases n; rfl

theorem flagAt_cons (i : Nat) (p : List Nat) (a : Bool) (v : Str) (c : Nat) (cs : List (Str × VN)) :
    flagAt (i :: p) (mk a v c cs) = (cs[i]?).bind fun kn => flagAt p kn.2 := by
  rw [flagAt_eq, at?_cons]
  cases cs[i]? with
  | none => rfl
  | some kn => exact (flagAt_eq p kn.2).symm

@[simp] theorem flagAt_nil (a : Bool) (v : Str) (c : Nat) (cs : List (Str × VN)) : flagAt [] (mk a v c cs) = some a := rfl

theorem at?_copy (p : List Nat) (n : VN) : at? p n.copy = (at? p n).map copy := by
  induction p generalizing n with
  | nil => rfl
  | cons i p ih =>
    obtain ⟨a, v, c, cs⟩ := n
    rw [copy, at?_cons, at?_cons, copyAll_eq, List.getElem?_map]
    cases cs[i]? with
    | none => rfl
    | some kn => exact ih kn.2

/-- No node of a copy has been accessed. -/
theorem flagAt_copy (p : List Nat) (n : VN) : flagAt p n.copy = (flagAt p n).map fun _ => false := by
  rw [flagAt_eq, flagAt_eq, at?_copy]
  cases at? p n with
  | none => rfl
  | some m => simp

theorem flagAt_copyAll (i : Nat) (p : List Nat) (cs : List (Str × VN)) :
    ((copyAll cs)[i]?.bind fun kn => flagAt p kn.2) = (cs[i]?.bind fun kn => flagAt p kn.2).map fun _ => false := by
  rw [copyAll_eq, List.getElem?_map]
  cases cs[i]? with
  | none => rfl
  | some kn => exact flagAt_copy p kn.2

theorem flagAt_modifyAt_self {f : VN → VN} (p : List Nat) (i : Nat) (cs : List (Str × VN)) :
    ((modifyAt f i cs)[i]?.bind fun kn => flagAt p kn.2) = cs[i]?.bind fun kn => flagAt p (f kn.2) := by
  induction cs generalizing i with
  | nil => cases i <;> rfl
  | cons kn cs ih => obtain ⟨k, n⟩ := kn; cases i with
    | zero => rfl
    | succ i => simpa [modifyAt] using ih i

theorem modifyAt_other {f : VN → VN} {i j : Nat} (h : i ≠ j) (cs : List (Str × VN)) : (modifyAt f i cs)[j]? = cs[j]? := by
  induction cs generalizing i j with
  | nil => cases i <;> rfl
  | cons kn cs ih => obtain ⟨k, n⟩ := kn; cases i with
    | zero => cases j with
      | zero => exact absurd rfl h
      | succ j => rfl
    | succ i => cases j with
      | zero => rfl
      | succ j => simpa [modifyAt] using ih (by omega)

@[simp] theorem modifyAt_length {f : VN → VN} (i : Nat) (cs : List (Str × VN)) : (modifyAt f i cs).length = cs.length := by
  induction cs generalizing i with
  | nil => cases i <;> rfl
  | cons kn cs ih => obtain ⟨k, n⟩ := kn; cases i <;> simp [modifyAt, ih]

theorem flagAt_access (p : List Nat) (n : VN) : flagAt p n.access = if p = [] then some true else flagAt p n := by
  obtain ⟨a, v, c, cs⟩ := n
  cases p with
  | nil => rfl
  | cons i p => rw [access, flagAt_cons, flagAt_cons, if_neg (by simp)]

/-- Reading the first child with a key sets the flags of the node and of that child, and no other flag changes. -/
theorem read_keeps (key : Str) (t : VN) (p : List Nat) (h : flagAt p t = some true) : flagAt p (read key t) = some true := by
  obtain ⟨a, v, c, cs⟩ := t
  cases p with
  | nil => simp only [read]; split <;> rfl
  | cons i p =>
    simp only [read]
    split
    · rw [flagAt_cons] at h ⊢; exact h
    · rename_i j hj
      rw [flagAt_cons] at h ⊢
      by_cases hij : j = i
      · subst hij
        rw [flagAt_modifyAt_self]
        cases hc : cs[j]? with
        | none => rw [hc] at h; cases h
        | some kn =>
          rw [hc] at h
          simp only [Option.bind_some] at h ⊢
          rw [flagAt_access]; split
          · rfl
          · exact h
      · rw [modifyAt_other hij]; exact h

theorem append_room {c : Nat} {cs : List (Str × VN)} (h : cs.length < c) (x : Str × VN) : append c cs x = (c, cs ++ [x]) := if_pos h

theorem append_full {c : Nat} {cs : List (Str × VN)} (h : c ≤ cs.length) (x : Str × VN) :
    append c cs x = (cs.length + max cs.length 1, copyAll cs ++ [x]) := if_neg (by omega)

/-- Positions before the new one. -/
theorem append_get {α : Type} {cs : List α} {x : α} {i : Nat} (h : i < cs.length) : (cs ++ [x])[i]? = cs[i]? := by
  rw [List.getElem?_append_left h]

theorem content_mergeLoop (ov : Bool) (os : List (Str × VN)) (t : VN) :
    content (VN.mergeLoop ov os t) = .mk false t.value (PN.clearAll (PN.mergeLoop ov (toPNAll t.children) (toPNAll os))) := by
  have clr : ∀ (os : List (Str × PN)) (cs cs' : List (Str × PN)), PN.clearAll cs = PN.clearAll cs' →
      PN.clearAll (PN.mergeLoop ov cs os) = PN.clearAll (PN.mergeLoop ov cs' os) := by
    have fnd : ∀ (k : Str) (cs : List (Str × PN)), PN.findIdx k (PN.clearAll cs) = PN.findIdx k cs := by
      intro k cs
      induction cs with
      | nil => rfl
      | cons kn cs ih => obtain ⟨k', n⟩ := kn; simp only [PN.clearAll, PN.findIdx, ih]
    have mdf : ∀ (v : PN) (i : Nat) (cs : List (Str × PN)), PN.clearAll (PN.modifyAt (PN.assign · v) i cs) =
        PN.modifyAt (fun _ => v.clear) i (PN.clearAll cs) := by
      intro v i cs
      induction cs generalizing i with
      | nil => cases i <;> rfl
      | cons kn cs ih => obtain ⟨k', n⟩ := kn; cases i <;> simp [PN.clearAll, PN.modifyAt, ih, PN.clear_assign]
    intro os
    induction os with
    | nil => intro cs cs' h; exact h
    | cons o os ih =>
      obtain ⟨k, n⟩ := o
      intro cs cs' h
      have hk : PN.findIdx k cs = PN.findIdx k cs' := by rw [← fnd k cs, h, fnd]
      simp only [PN.mergeLoop, hk]
      cases PN.findIdx k cs' with
      | none => exact ih _ _ (by simp only [clearAll_append, h])
      | some i =>
        apply ih
        split
        · rw [mdf, mdf, h]
        · exact h
  induction os generalizing t with
  | nil => obtain ⟨a, v, c, cs⟩ := t; rfl
  | cons o os ih =>
    obtain ⟨k, n⟩ := o
    obtain ⟨a, v, c, cs⟩ := t
    rw [VN.mergeLoop, ih]
    simp only [toPNAll, PN.mergeLoop, VN.children, findIdx_toPN]
    cases h : VN.findIdx k cs with
    | none =>
      have e := content_pushBack k n (.mk true v c cs)
      cases hp : VN.pushBack k n (.mk true v c cs) with
      | mk a' v' c' cs' =>
        rw [hp] at e
        simp only [content_mk, VN.toPN, PN.pushBack, PN.clear, PN.mk.injEq, true_and] at e
        simp only [VN.value]
        rw [e.1]
        congr 1
        exact clr _ _ _ e.2
    | some i =>
      cases ov with
      | false => rfl
      | true =>
        simp only [VN.value, if_true]
        congr 1
        apply clr
        exact contentAll_modifyAt (f := (VN.assign · n)) (g := fun x => PN.assign x n.toPN)
          (fun m => by rw [content_assign, PN.clear_assign]; rfl) i cs

end VN

end Flut
