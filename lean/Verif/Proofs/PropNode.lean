import Verif.Spec.PropText

/-! # Lemmas about `prop_node` trees -/

namespace Flut

open Spec

namespace PN

/-- Structural induction on trees. -/
theorem induct {P : PN → Prop} (h : ∀ a v cs, (∀ kn ∈ cs, P kn.2) → P (.mk a v cs)) (n : PN) : P n :=
  PN.rec (motive_1 := P) (motive_2 := fun cs => ∀ kn ∈ cs, P kn.2) (motive_3 := fun kn => P kn.2)
    (fun a v cs ih => h a v cs ih) (by simp)
    (fun kn cs h1 h2 x hx => by
      rcases List.mem_cons.1 hx with rfl | hx
      · exact h1
      · exact h2 x hx)
    (fun _ _ ih => ih) n

theorem clearAll_eq (cs : List (Str × PN)) : clearAll cs = cs.map fun kn => (kn.1, kn.2.clear) := by
  induction cs with
  | nil => rfl
  | cons kn cs ih => obtain ⟨k, n⟩ := kn; simp [clearAll, ih]

theorem clear_mk (a : Bool) (v : Str) (cs : List (Str × PN)) :
    clear (.mk a v cs) = .mk false v (cs.map fun kn => (kn.1, kn.2.clear)) := by
  rw [clear, clearAll_eq]

theorem clear_clear (n : PN) : n.clear.clear = n.clear := by
  induction n using PN.induct with
  | h a v cs ih =>
    simp only [clear_mk, List.map_map]
    congr 1
    apply List.map_congr_left
    intro kn hkn
    simp [ih kn hkn]

@[simp] theorem clear_access (n : PN) : n.access.clear = n.clear := by
  cases n; simp [access, clear]

/-- Two trees have the same content exactly if they are equal after clearing the flags. -/
theorem sameTree_iff (m n : PN) : SameTree m n ↔ m.clear = n.clear := by
  induction m using PN.induct generalizing n with
  | h a v cs ih =>
    obtain ⟨b, w, ds⟩ := n
    simp only [clear_mk, mk.injEq, true_and]
    constructor
    · rintro ⟨hk, hc⟩
      refine ⟨rfl, ?_⟩
      clear a b v
      induction cs generalizing ds with
      | nil => cases ds <;> simp_all
      | cons x xs ihx =>
        cases ds with
        | nil => simp at hk
        | cons y ys =>
          simp at hk
          simp only [List.map_cons, List.cons.injEq]
          refine ⟨?_, ihx (fun kn h => ih kn (by simp [h])) ys hk.2 (fun p hp => hc p (by simp [hp]))⟩
          have := (ih x (by simp) y.2).1 (hc (x, y) (by simp))
          rw [this, hk.1]
    · rintro ⟨rfl, hm⟩
      refine ⟨?_, ?_⟩
      · have := congrArg (List.map Prod.fst) hm
        simpa [List.map_map, Function.comp_def] using this
      · clear a b v
        induction cs generalizing ds with
        | nil => simp
        | cons x xs ihx =>
          cases ds with
          | nil => simp at hm
          | cons y ys =>
            simp only [List.map_cons, List.cons.injEq, Prod.mk.injEq] at hm
            intro p hp
            rcases List.mem_cons.1 (by simpa using hp) with rfl | hp
            · exact (ih x (by simp) y.2).2 hm.1.2
            · exact ihx (fun kn h => ih kn (by simp [h])) ys hm.2 p hp

end PN

end Flut
