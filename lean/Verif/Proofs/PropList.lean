import Verif.Model.PropList
import Verif.Spec.PropList
import Verif.Proofs.PropApi
import Mathlib.Data.List.TakeDrop

/-! # Lemmas on listings -/

namespace Flut
namespace PN

open Spec

/-- The line of a node. -/
def listLine (align : Nat) (x : Nat × Str × PN) : Str :=
  padRight align (List.replicate (x.1 * 2) 32 ++ x.2.1)
    ++ (if x.2.2.hasValue || x.2.2.size = 0 then b!" = " ++ x.2.2.value else [])

mutual
theorem alignWidth_le (depth : Nat) (n : PN) (x : Nat × Str × PN) (hx : x ∈ preorder depth n) (hk : x.2.1 ≠ []) :
    alignWidth depth n ≠ 0 := by
  match n with
  | .mk _ _ cs =>
    unfold preorder at hx
    unfold alignWidth
    exact alignWidthAll_le depth cs x hx hk 0
theorem alignWidthAll_le (depth : Nat) (cs : List (Str × PN)) (x : Nat × Str × PN) (hx : x ∈ preorderAll depth cs)
    (hk : x.2.1 ≠ []) (w : Nat) : alignWidthAll depth cs w ≠ 0 := by
  match cs with
  | [] => simp [preorderAll] at hx
  | (k, n) :: r =>
    have mono : ∀ (r : List (Str × PN)) (w : Nat), w ≤ alignWidthAll depth r w := by
      intro r
      induction r with
      | nil => intro w; simp [alignWidthAll]
      | cons y r ih =>
        intro w
        obtain ⟨k', n'⟩ := y
        unfold alignWidthAll
        exact Nat.le_trans (by omega) (ih _)
    unfold alignWidthAll
    simp only [preorderAll, List.cons_append, List.mem_cons, List.mem_append] at hx
    rcases hx with rfl | hx | hx
    · have := mono r (max (max w (depth * 2 + k.length)) (alignWidth (depth + 1) n))
      have : 0 < k.length := List.length_pos_iff.2 hk
      omega
    · have h1 := alignWidth_le (depth + 1) n x hx hk
      have := mono r (max (max w (depth * 2 + k.length)) (alignWidth (depth + 1) n))
      omega
    · exact alignWidthAll_le depth r x hx hk _
end

mutual
theorem toStream_eq (depth align : Nat) (h : align ≠ 0) (n : PN) :
    toStream depth align n = ((preorder depth n).map fun x => listLine align x ++ [10]).flatten := by
  match n with
  | .mk a v cs =>
    unfold toStream preorder
    rw [if_neg h]
    exact toStreamAll_eq depth align h cs
theorem toStreamAll_eq (depth align : Nat) (h : align ≠ 0) (cs : List (Str × PN)) :
    toStreamAll depth align cs = ((preorderAll depth cs).map fun x => listLine align x ++ [10]).flatten := by
  match cs with
  | [] => rfl
  | (k, n) :: r =>
    unfold toStreamAll preorderAll
    rw [toStream_eq (depth + 1) align h n, toStreamAll_eq depth align h r]
    simp [listLine]
end

theorem listing_eq (n : PN) (h : ∀ x ∈ preorder 0 n, PlainKey x.2.1) :
    n.listing = ((preorder 0 n).map fun x => listLine (alignWidth 0 n) x ++ [10]).flatten := by
  by_cases hz : alignWidth 0 n = 0
  · have : preorder 0 n = [] := by
      rw [List.eq_nil_iff_forall_not_mem]
      intro x hx
      exact alignWidth_le 0 n x hx (h x hx).1 hz
    rw [this]
    obtain ⟨a, v, cs⟩ := n
    cases cs with
    | nil => simp [listing, toStream, toStreamAll]
    | cons y r => obtain ⟨k, m⟩ := y; simp [preorder, preorderAll] at this
  · obtain ⟨a, v, cs⟩ := n
    unfold listing toStream preorder
    rw [if_pos rfl]
    exact toStreamAll_eq 0 _ hz cs

theorem readLine_listLine (align : Nat) (x : Nat × Str × PN) (hk : PlainKey x.2.1) :
    readLine (listLine align x) = (x.1, x.2.1, shownValue x.2.2) := by
  obtain ⟨d, k, n⟩ := x
  obtain ⟨h1, h2, _⟩ := hk
  simp only at h1 h2
  obtain ⟨c, k', rfl⟩ := List.exists_cons_of_ne_nil h1
  have hc : c ≠ 32 := fun e => h2 (by simp [e])
  have hall : ∀ y ∈ c :: k', (y != 32) = true := by
    intro y hy
    simp only [bne_iff_ne, ne_eq]
    rintro rfl
    exact h2 hy
  have e : listLine align (d, c :: k', n) = List.replicate (d * 2) 32 ++ ((c :: k') ++
      (List.replicate (align - (List.replicate (d * 2) (32 : Byte) ++ c :: k').length) 32 ++
        (if n.hasValue || n.size = 0 then b!" = " ++ n.value else []))) := by
    simp [listLine, padRight]
  have t1 : ∀ (m : Nat) (s : Str), (∀ y ∈ s.head?, y ≠ 32) →
      (List.replicate m (32 : Byte) ++ s).takeWhile (· == 32) = List.replicate m 32 ∧
      (List.replicate m (32 : Byte) ++ s).dropWhile (· == 32) = s := by
    intro m s hs
    induction m with
    | zero =>
      cases s with
      | nil => simp
      | cons y s =>
        have := hs y (by simp)
        simp [this]
    | succ m ih =>
      simp only [List.replicate_succ, List.cons_append]
      constructor
      · rw [List.takeWhile_cons_of_pos (by simp), ih.1]
      · rw [List.dropWhile_cons_of_pos (by simp), ih.2]
  have t2 : ∀ (s : Str), (∀ y ∈ s.head?, y = 32) → ((c :: k') ++ s).takeWhile (· != 32) = c :: k' ∧
      ((c :: k') ++ s).dropWhile (· != 32) = s := by
    intro s hs
    constructor
    · rw [List.takeWhile_append_of_pos hall]
      cases s with
      | nil => simp
      | cons y s => have := hs y (by simp); subst this; simp
    · rw [List.dropWhile_append_of_pos hall]
      cases s with
      | nil => simp
      | cons y s => have := hs y (by simp); subst this; simp
  unfold readLine
  rw [e]
  have u1 := t1 (d * 2) ((c :: k') ++ (List.replicate (align - (List.replicate (d * 2) (32 : Byte) ++ c :: k').length) 32 ++
        (if n.hasValue || n.size = 0 then b!" = " ++ n.value else []))) (by simpa using hc)
  rw [u1.1, u1.2]
  have u2 := t2 (List.replicate (align - (List.replicate (d * 2) (32 : Byte) ++ c :: k').length) 32 ++
        (if n.hasValue || n.size = 0 then b!" = " ++ n.value else [])) (by
    generalize align - (List.replicate (d * 2) (32 : Byte) ++ c :: k').length = m
    cases m with
    | zero => split <;> simp
    | succ m => simp [List.replicate_succ])
  show (_, List.takeWhile _ ((c :: k') ++ _), if List.dropWhile _ (List.dropWhile _ ((c :: k') ++ _)) = [] then none else
    some (List.drop 2 (List.dropWhile _ (List.dropWhile _ ((c :: k') ++ _))))) = _
  rw [u2.1, u2.2]
  generalize align - (List.replicate (d * 2) (32 : Byte) ++ c :: k').length = m
  have hlen : (List.replicate (d * 2) (32 : Byte)).length / 2 = d := by simp
  simp only [hlen, Prod.mk.injEq, true_and]
  obtain ⟨a, v, cs⟩ := n
  by_cases hv : v = [] ∧ cs ≠ []
  · have : ¬ ((PN.mk a v cs).hasValue || decide ((PN.mk a v cs).size = 0)) = true := by
      simp [hasValue, size, value, children, hv.1, hv.2]
    rw [if_neg this]
    have := (t1 m [] (by simp)).2
    rw [this]
    simp [shownValue, hv]
  · have : ((PN.mk a v cs).hasValue || decide ((PN.mk a v cs).size = 0)) = true := by
      simp only [hasValue, size, value, children, Bool.or_eq_true, Bool.not_eq_true', List.isEmpty_eq_false_iff,
        decide_eq_true_eq, List.length_eq_zero_iff]
      by_contra hh
      push Not at hh
      exact hv hh
    rw [if_pos this]
    have e2 : List.replicate m (32 : Byte) ++ (b!" = " ++ (PN.mk a v cs).value)
        = List.replicate (m + 1) (32 : Byte) ++ (b!"= " ++ v) := by
      rw [List.replicate_succ']
      simp [value]
    rw [e2]
    have := (t1 (m + 1) (b!"= " ++ v) (by simp)).2
    rw [this]
    simp [shownValue, hv]

theorem listLine_no_newline (align : Nat) (x : Nat × Str × PN) (hk : PlainKey x.2.1) (hv : (10 : Byte) ∉ valueOf x.2.2) :
    (10 : Byte) ∉ listLine align x := by
  obtain ⟨d, k, n⟩ := x
  obtain ⟨a, v, cs⟩ := n
  obtain ⟨_, _, h3⟩ := hk
  simp only [valueOf] at hv
  simp only [listLine, padRight, List.mem_append, List.mem_replicate, not_or]
  refine ⟨⟨⟨fun h => absurd h.2 (by decide), h3⟩, fun h => absurd h.2 (by decide)⟩, ?_⟩
  split
  · simp [value, hv]
  · simp

theorem readListing_lines (ls : List Str) (h : ∀ l ∈ ls, (10 : Byte) ∉ l) :
    readListing (ls.map (· ++ [10])).flatten = ls.map readLine := by
  unfold readListing
  congr 1
  induction ls with
  | nil => rfl
  | cons l ls ih =>
    have e : ((l :: ls).map (· ++ [(10 : Byte)])).flatten = l ++ 10 :: (ls.map (· ++ [(10 : Byte)])).flatten := by simp
    rw [e, List.splitOn_append_cons_self_of_not_mem (h l (by simp)),
      List.dropLast_cons_of_ne_nil (List.splitOn_ne_nil _ _), ih (fun l' hl' => h l' (by simp [hl']))]

/-- What a listing shows of each node. -/
def shown (x : Nat × Str × PN) : Nat × Str × Option Str := (x.1, x.2.1, shownValue x.2.2)

/-- The outline of a forest determines it. -/
theorem outline_inj : ∀ (m : Nat) (d : Nat) (cs ds : List (Str × PN)) (X Y : List (Nat × Str × Option Str)),
    sizeOf cs ≤ m → (∀ x ∈ X.head?, x.1 < d) → (∀ y ∈ Y.head?, y.1 < d) →
    (preorderAll d cs).map shown ++ X = (preorderAll d ds).map shown ++ Y → clearAll cs = clearAll ds ∧ X = Y := by
  intro m
  induction m with
  | zero => intro d cs ds X Y hm; cases cs <;> simp at hm
  | succ m ih =>
    intro d cs ds X Y hm hX hY h
    match cs, ds with
    | [], [] => exact ⟨rfl, by simpa [preorderAll] using h⟩
    | [], (k, n) :: r =>
      simp only [preorderAll, List.map_nil, List.nil_append, List.map_cons, List.cons_append] at h
      have := hX _ (by rw [h]; simp; rfl)
      simp [shown] at this
    | (k, n) :: r, [] =>
      simp only [preorderAll, List.map_nil, List.nil_append, List.map_cons, List.cons_append] at h
      have := hY _ (by rw [← h]; simp; rfl)
      simp [shown] at this
    | (k, .mk a v cs) :: r, (k', .mk a' v' cs') :: r' =>
      simp only [preorderAll, preorder, List.map_cons, List.cons_append, List.map_append, List.append_assoc, List.cons.injEq,
        shown, Prod.mk.injEq, true_and] at h
      obtain ⟨⟨hk, hv⟩, h⟩ := h
      have hd : ∀ (r : List (Str × PN)) (X : List (Nat × Str × Option Str)), (∀ x ∈ X.head?, x.1 < d) →
          ∀ x ∈ ((preorderAll d r).map shown ++ X).head?, x.1 < d + 1 := by
        intro r X hX x hx
        match r with
        | [] =>
          simp only [preorderAll, List.map_nil, List.nil_append] at hx
          have := hX x hx; omega
        | (k, n) :: r =>
          simp only [preorderAll, List.map_cons, List.cons_append, List.head?_cons, Option.mem_some_iff] at hx
          rw [← hx]
          simp [shown]
      simp only [List.cons.sizeOf_spec, Prod.mk.sizeOf_spec, PN.mk.sizeOf_spec] at hm
      obtain ⟨h1, h2⟩ := ih (d + 1) cs cs' _ _ (by omega) (hd r X hX) (hd r' Y hY) h
      obtain ⟨h3, h4⟩ := ih d r r' X Y (by omega) hX hY h2
      refine ⟨?_, h4⟩
      have hlen : cs = [] ↔ cs' = [] := by
        cases cs <;> cases cs' <;> simp [clearAll] at h1 ⊢
      have hv' : v = v' := by
        simp only [shownValue] at hv
        by_cases g : v = [] ∧ cs ≠ []
        · rw [if_pos g] at hv
          split at hv
          · rename_i g'; rw [g.1, g'.1]
          · cases hv
        · rw [if_neg g] at hv
          split at hv
          · cases hv
          · injection hv
      subst hk; subst hv'
      simp [clearAll, clear, h1, h3]

mutual
theorem countUnaccessed_pos (n : PN) : 0 < n.countUnaccessed ↔ false ∈ flags n := by
  match n with
  | .mk a v cs =>
    unfold countUnaccessed flags
    have := countUnaccessedAll_pos cs
    cases a
    · simp; omega
    · simp [this]
theorem countUnaccessedAll_pos (cs : List (Str × PN)) : 0 < countUnaccessedAll cs ↔ false ∈ flagsAll cs := by
  match cs with
  | [] => simp [countUnaccessedAll, flagsAll]
  | (k, n) :: r =>
    have h1 := countUnaccessed_pos n
    have h2 := countUnaccessedAll_pos r
    unfold countUnaccessedAll flagsAll
    rw [List.mem_append, ← h1, ← h2]
    omega
end

mutual
theorem logUnaccessed_fst (d : Nat) (n : PN) :
    (logUnaccessed d n).1 = (preorder d n).flatMap fun x => unaccessedLine x.1 x.2.1 x.2.2 := by
  match n with
  | .mk a v cs => unfold logUnaccessed preorder; exact logUnaccessedAll_fst d cs
theorem logUnaccessedAll_fst (d : Nat) (cs : List (Str × PN)) :
    (logUnaccessedAll d cs).1 = (preorderAll d cs).flatMap fun x => unaccessedLine x.1 x.2.1 x.2.2 := by
  match cs with
  | [] => rfl
  | (k, n) :: r =>
    unfold logUnaccessedAll preorderAll
    simp only [logUnaccessed_fst (d + 1) n, logUnaccessedAll_fst d r, List.cons_append, List.flatMap_cons, List.flatMap_append,
      List.append_assoc]
end

mutual
theorem logUnaccessed_snd (d : Nat) (n : PN) : (logUnaccessed d n).2 = afterStream n := by
  match n with
  | .mk a v cs => simp [logUnaccessed, afterStream, logUnaccessedAll_snd d cs]
theorem logUnaccessedAll_snd (d : Nat) (cs : List (Str × PN)) : (logUnaccessedAll d cs).2 = afterStreamAll cs := by
  match cs with
  | [] => rfl
  | (k, n) :: r => simp [logUnaccessedAll, afterStreamAll, logUnaccessed_snd (d + 1) n, logUnaccessedAll_snd d r]
end

mutual
theorem flags_afterStream (n : PN) : ∀ f ∈ flags (afterStream n), f = true := by
  match n with
  | .mk a v cs =>
    unfold afterStream flags
    intro f hf
    rcases List.mem_cons.1 hf with rfl | hf
    · rfl
    · exact flagsAll_afterStream cs f hf
theorem flagsAll_afterStream (cs : List (Str × PN)) : ∀ f ∈ flagsAll (afterStreamAll cs), f = true := by
  match cs with
  | [] => simp [afterStreamAll, flagsAll]
  | (k, n) :: r =>
    unfold afterStreamAll flagsAll
    intro f hf
    rcases List.mem_append.1 hf with hf | hf
    · exact flags_afterStream n f hf
    · exact flagsAll_afterStream r f hf
end

mutual
theorem clear_afterStream (n : PN) : (afterStream n).clear = n.clear := by
  match n with
  | .mk a v cs => simp [afterStream, clear, clearAll_afterStream cs]
theorem clearAll_afterStream (cs : List (Str × PN)) : clearAll (afterStreamAll cs) = clearAll cs := by
  match cs with
  | [] => rfl
  | (k, n) :: r => simp [afterStreamAll, clearAll, clear_afterStream n, clearAll_afterStream r]
end

mutual
theorem preorder_flags (d : Nat) (n : PN) (h : ∀ f ∈ flags n, f = true) :
    ∀ x ∈ preorder d n, ∀ f ∈ flags x.2.2, f = true := by
  match n with
  | .mk a v cs =>
    unfold preorder
    unfold flags at h
    exact preorderAll_flags d cs (fun f hf => h f (List.mem_cons_of_mem _ hf))
theorem preorderAll_flags (d : Nat) (cs : List (Str × PN)) (h : ∀ f ∈ flagsAll cs, f = true) :
    ∀ x ∈ preorderAll d cs, ∀ f ∈ flags x.2.2, f = true := by
  match cs with
  | [] => simp [preorderAll]
  | (k, n) :: r =>
    unfold flagsAll at h
    have hn : ∀ f ∈ flags n, f = true := fun f hf => h f (List.mem_append_left _ hf)
    intro x hx
    simp only [preorderAll, List.cons_append, List.mem_cons, List.mem_append] at hx
    rcases hx with rfl | hx | hx
    · exact hn
    · exact preorder_flags (d + 1) n hn x hx
    · exact preorderAll_flags d r (fun f hf => h f (List.mem_append_right _ hf)) x hx
end

mutual
theorem alignWidth_clear (d : Nat) (n : PN) : alignWidth d n.clear = alignWidth d n := by
  match n with
  | .mk a v cs => simp [alignWidth, clear, alignWidthAll_clear d cs]
theorem alignWidthAll_clear (d : Nat) (cs : List (Str × PN)) (w : Nat) :
    alignWidthAll d (clearAll cs) w = alignWidthAll d cs w := by
  match cs with
  | [] => rfl
  | (k, n) :: r => simp [alignWidthAll, clearAll, alignWidth_clear (d + 1) n, alignWidthAll_clear d r]
end

theorem size_clear (n : PN) : n.clear.size = n.size := by
  obtain ⟨a, v, cs⟩ := n
  have : ∀ cs, (clearAll cs).length = cs.length := by
    intro cs
    induction cs with
    | nil => rfl
    | cons y cs ih => obtain ⟨k, n⟩ := y; simp [clearAll, ih]
  simp [clear, size, children, this]

theorem value_clear (n : PN) : n.clear.value = n.value := by obtain ⟨a, v, cs⟩ := n; rfl

mutual
theorem toStream_clear (d al : Nat) (n : PN) : toStream d al n.clear = toStream d al n := by
  match n with
  | .mk a v cs =>
    have := alignWidth_clear d (.mk a v cs)
    unfold toStream
    simp only [clear] at this ⊢
    rw [this, toStreamAll_clear]
theorem toStreamAll_clear (d al : Nat) (cs : List (Str × PN)) : toStreamAll d al (clearAll cs) = toStreamAll d al cs := by
  match cs with
  | [] => rfl
  | (k, n) :: r =>
    simp [toStreamAll, clearAll, toStream_clear (d + 1) al n, toStreamAll_clear d al r, size_clear, value_clear, hasValue]
end

mutual
theorem flagsAll_of_preorder (d : Nat) (cs : List (Str × PN)) (h : ∀ x ∈ preorderAll d cs, flagOf x.2.2 = true) :
    false ∉ flagsAll cs := by
  match cs with
  | [] => simp [flagsAll]
  | (k, n) :: r =>
    unfold flagsAll
    rw [List.mem_append, not_or]
    refine ⟨flags_of_preorder (d + 1) n (h (d, k, n) (by simp [preorderAll])) ?_, flagsAll_of_preorder d r ?_⟩
    · intro x hx; exact h x (by simp [preorderAll, hx])
    · intro x hx; exact h x (by simp [preorderAll, hx])
theorem flags_of_preorder (d : Nat) (n : PN) (hn : flagOf n = true) (h : ∀ x ∈ preorder d n, flagOf x.2.2 = true) :
    false ∉ flags n := by
  match n with
  | .mk a v cs =>
    simp only [flagOf] at hn
    subst hn
    unfold flags
    simp only [List.mem_cons, Bool.false_eq_true, false_or]
    exact flagsAll_of_preorder d cs (by simpa [preorder] using h)
end

mutual
theorem preorder_all_accessed (d : Nat) (n : PN) (h : ∀ x ∈ preorder d n, flagOf x.2.2 = true) :
    ∀ x ∈ preorder d n, false ∉ flags x.2.2 := by
  match n with
  | .mk a v cs =>
    unfold preorder at h ⊢
    exact preorderAll_all_accessed d cs h
theorem preorderAll_all_accessed (d : Nat) (cs : List (Str × PN)) (h : ∀ x ∈ preorderAll d cs, flagOf x.2.2 = true) :
    ∀ x ∈ preorderAll d cs, false ∉ flags x.2.2 := by
  match cs with
  | [] => simp [preorderAll]
  | (k, n) :: r =>
    have h1 : ∀ x ∈ preorder (d + 1) n, flagOf x.2.2 = true := fun x hx => h x (by simp [preorderAll, hx])
    have h2 : ∀ x ∈ preorderAll d r, flagOf x.2.2 = true := fun x hx => h x (by simp [preorderAll, hx])
    intro x hx
    simp only [preorderAll, List.cons_append, List.mem_cons, List.mem_append] at hx
    rcases hx with rfl | hx | hx
    · exact flags_of_preorder (d + 1) n (h (d, k, n) (by simp [preorderAll])) h1
    · exact preorder_all_accessed (d + 1) n h1 x hx
    · exact preorderAll_all_accessed d r h2 x hx
end

end PN
end Flut
