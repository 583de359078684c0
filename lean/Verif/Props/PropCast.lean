import Verif.Proofs.PropApi
import Verif.Model.PropCast
import Verif.Proofs.Text
import Mathlib.Tactic.Tauto

/-!
# C27: structured values survive conversion to a `prop_node` and back

The hypothesis `hrt` says what becomes of the elements; `Props/Real.lean` says it for real numbers.
`PN.clear` appears because copying a node gives fresh access flags.
-/

namespace Flut

open Spec PN

theorem clear_clear (n : PN) : n.clear.clear = n.clear := (sameTree_iff _ _).1 (sameTree_clear n)

/-- Vectors of any length: if every element comes back as `g` of it, so does the vector. With `g = id` nothing is lost. -/
theorem C27_vector {α : Type} (to : α → PN) (from' : PN → Res α) (g : α → α) (xs : List α)
    (hrt : ∀ x ∈ xs, from' (to x).clear = .ok (g x)) : fromVec from' (toVec to xs).clear = .ok (xs.map g) := by
  have h : ∀ i, fromVecLoop from' (clearAll (toVecFrom to i xs)) = .ok (xs.map g) := by
    induction xs with
    | nil => intro i; rfl
    | cons x xs ih =>
      intro i
      simp [toVecFrom, clearAll, fromVecLoop, clear_clear, hrt x (by simp), ih fun y hy => hrt y (by simp [hy])]
  exact h 0

theorem vec3To_eq {α : Type} (to : α → PN) (v : Vec3 α) :
    (vec3To to v).clear = .mk false [] [(b!"x", (to v.x).clear), (b!"y", (to v.y).clear), (b!"z", (to v.z).clear)] := by
  simp [vec3To, PN.set, findIdx, nil, clear, clearAll, clear_clear]

theorem quatTo_eq {α : Type} (to : α → PN) (q : Quat α) :
    (quatTo to q).clear = .mk false [] [(b!"w", (to q.w).clear), (b!"x", (to q.x).clear), (b!"y", (to q.y).clear),
      (b!"z", (to q.z).clear)] := by
  simp [quatTo, PN.set, findIdx, nil, clear, clearAll, clear_clear]

/-- Three-component vectors, whatever the default value and the reading of plain text. -/
theorem C27_vec3 {α : Type} (to : α → PN) (from' : PN → Res α) (g : α → α) (zero : α) (ofText : Str → Vec3 α → Res (Vec3 α))
    (v : Vec3 α) (hrt : ∀ x ∈ [v.x, v.y, v.z], from' (to x).clear = .ok (g x)) :
    vec3From from' zero ofText (vec3To to v).clear = .ok ⟨g v.x, g v.y, g v.z⟩ := by
  rw [vec3To_eq]
  simp at hrt
  simp [vec3From, getDef, getKeyed, findIdx, modifyAt, clear_clear, hrt, hasValue, PN.value]

/-- Quaternions. -/
theorem C27_quat {α : Type} (to : α → PN) (from' : PN → Res α) (g : α → α) (q : Quat α)
    (hrt : ∀ x ∈ [q.w, q.x, q.y, q.z], from' (to x).clear = .ok (g x)) :
    quatFrom from' (quatTo to q).clear = .ok ⟨g q.w, g q.x, g q.y, g q.z⟩ := by
  rw [quatTo_eq]
  simp at hrt
  simp [quatFrom, getKeyed, findIdx, modifyAt, clear_clear, hrt]

/-- Transforms. -/
theorem C27_transform {α : Type} (to : α → PN) (from' : PN → Res α) (g : α → α) (zero : α) (ofText : Str → Vec3 α → Res (Vec3 α))
    (t : Trans α) (hrt : ∀ x ∈ [t.p.x, t.p.y, t.p.z, t.q.w, t.q.x, t.q.y, t.q.z], from' (to x).clear = .ok (g x)) :
    transFrom from' zero ofText (transTo to t).clear =
      .ok { p := ⟨g t.p.x, g t.p.y, g t.p.z⟩, q := ⟨g t.q.w, g t.q.x, g t.q.y, g t.q.z⟩ } := by
  have h : (transTo to t).clear = .mk false [] [(b!"p", (vec3To to t.p).clear), (b!"q", (quatTo to t.q).clear)] := by
    simp [transTo, PN.set, findIdx, nil, clear, clearAll, clear_clear]
  rw [h]
  have h1 := C27_vec3 to from' g zero ofText t.p fun x hx => hrt x (by simp at hx ⊢; tauto)
  have h2 := C27_quat to from' g t.q fun x hx => hrt x (by simp at hx ⊢; tauto)
  simp [transFrom, getChild, findIdx, PN.children, h1, h2]

/-- Strings are an element type with the hypothesis, and so are vectors of such. -/
theorem C27_string (s : Str) : castStr (fun s => .ok s) (toStrNode id s).clear = .ok s := rfl

example : ∀ xs : List Str, fromVec (castStr fun s => .ok s) (toVec (toStrNode id) xs).clear = .ok xs :=
  fun xs => by simpa using C27_vector _ _ id xs fun x _ => C27_string x

/-- The keys of `vector::to` are `item0`, `item1`, ... in order: the word followed by the number in decimal digits, without
leading zeros. -/
theorem C27_vector_keys {α : Type} (to : α → PN) (xs : List α) :
    (toVec to xs).children.length = xs.length ∧
      ∀ (i : Nat) k c, (toVec to xs).children[i]? = some (k, c) →
        ∃ ds, k = b!"item" ++ ds ∧ Spec.IsDigits ds ∧ Spec.decValue ds = i ∧ (ds.head? = some c!"0" → i = 0) := by
  have h : ∀ j, (toVecFrom to j xs).length = xs.length ∧
      ∀ (i : Nat) k c, (toVecFrom to j xs)[i]? = some (k, c) → k = itemKey (j + i) := by
    induction xs with
    | nil => intro j; exact ⟨rfl, by simp [toVecFrom]⟩
    | cons x xs ih =>
      intro j
      refine ⟨by simp [toVecFrom, (ih (j + 1)).1], ?_⟩
      intro i k c h
      cases i with
      | zero => simp only [toVecFrom, List.getElem?_cons_zero, Option.some.injEq, Prod.mk.injEq] at h; exact h.1.symm
      | succ i =>
        simp only [toVecFrom, List.getElem?_cons_succ] at h
        rw [(ih (j + 1)).2 i k c h]; congr 1; omega
  refine ⟨(h 0).1, fun i k c hk => ⟨natStr i, ?_, (natStr_digits i).1, (natStr_digits i).2, ?_⟩⟩
  · rw [(h 0).2 i k c hk, Nat.zero_add, itemKey]
  · exact natStr_head i

example : itemKey 12 = b!"item12" := by decide

end Flut
