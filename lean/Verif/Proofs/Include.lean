import Verif.Proofs.PropApi
import Verif.Spec.Include

/-! # Lemmas for include resolution -/

namespace Flut

open Spec PN

/-- A child that is no directive and contains none. -/
def CleanKid (dir : Str) (kn : Str × PN) : Prop := kn.1 ≠ dir ∧ NoDirective dir kn.2

theorem noDirective_iff {dir : Str} {a : Bool} {v : Str} {cs : List (Str × PN)} :
    NoDirective dir (.mk a v cs) ↔ ∀ kn ∈ cs, CleanKid dir kn := by
  constructor
  · intro h kn hk
    cases h with | mk h1 h2 => exact ⟨h1 kn hk, h2 kn hk⟩
  · intro h
    exact .mk (fun kn hk => (h kn hk).1) (fun kn hk => (h kn hk).2)

theorem noDirective_clear {dir : Str} (n : PN) (h : NoDirective dir n) : NoDirective dir n.clear := by
  induction n using PN.induct with
  | h a v cs ih =>
    rw [noDirective_iff] at h
    rw [clear, noDirective_iff]
    have key : ∀ ds : List (Str × PN), (∀ kn ∈ ds, kn ∈ cs) → ∀ kn ∈ clearAll ds, CleanKid dir kn := by
      intro ds
      induction ds with
      | nil => simp [clearAll]
      | cons x xs ihx =>
        obtain ⟨k, n⟩ := x
        intro hs kn hk
        simp only [clearAll, List.mem_cons] at hk
        rcases hk with rfl | hk
        · have := h (k, n) (hs _ (by simp))
          exact ⟨this.1, ih (k, n) (hs _ (by simp)) this.2⟩
        · exact ihx (fun kn hk => hs kn (by simp [hk])) kn hk
    exact key cs fun _ h => h

theorem newKids_sub (seen : List Str) (os : List (Str × PN)) : ∀ kn ∈ newKids seen os, kn ∈ os := by
  induction os generalizing seen with
  | nil => simp [newKids]
  | cons x xs ih =>
    obtain ⟨k, n⟩ := x
    intro kn h
    rw [newKids] at h
    split at h
    · exact List.mem_cons_of_mem _ (ih _ _ h)
    · rcases List.mem_cons.1 h with rfl | h
      · simp
      · exact List.mem_cons_of_mem _ (ih _ _ h)

theorem mergeLoop_newKids (cs os : List (Str × PN)) :
    mergeLoop false cs os = cs ++ newKids (cs.map Prod.fst) (clearAll os) := by
  induction os generalizing cs with
  | nil => simp [mergeLoop, clearAll, newKids]
  | cons x xs ih =>
    obtain ⟨k, n⟩ := x
    rw [mergeLoop, clearAll, newKids]
    rcases findIdx_cases k cs with ⟨h1, h2⟩ | ⟨pre, m, post, rfl, h1, h2⟩
    · rw [h1, if_neg h2]
      simp [ih]
    · simp only [h2, Bool.false_eq_true, if_false]
      rw [if_pos (by simp)]
      exact ih _

/-- What the included files have to satisfy. -/
def GoodChild (dir : Str) (child : Str → Res PN) : Prop :=
  ∀ f t, child f = .ok t → NoDirective dir t ∧ t.clear = t

theorem clear_kids {n : PN} (h : n.clear = n) : clearAll n.children = n.children := by
  obtain ⟨a, v, cs⟩ := n
  rw [clear] at h
  injection h

theorem clear_single {t : PN} {k : Str} {r : PN} (h : t.clear = t) (hk : t.children = [(k, r)]) : r.clear = r := by
  have := clear_kids h
  rw [hk] at this
  simp [clearAll] at this
  exact this

theorem eraseIdx_split {α : Type} (pre : List α) (x : α) (post : List α) :
    (pre ++ x :: post).eraseIdx pre.length = pre ++ post := by
  rw [List.eraseIdx_append_of_length_le (by omega)]; simp

theorem set_split {α : Type} (pre : List α) (x y : α) (post : List α) :
    (pre ++ x :: post).set pre.length y = pre ++ y :: post := by
  rw [List.set_append_right _ _ (by omega)]; simp

/-- One iteration of the loop, on the children before, at and after the position. -/
theorem resolveKids_end (env : IncludeEnv) (child : Str → Res PN) (file : Str) (fuel : Nat) (pre : List (Str × PN)) :
    resolveKids env child file (fuel + 1) pre.length pre = .ok pre := by
  simp [resolveKids]

theorem resolveKids_keep (env : IncludeEnv) (child : Str → Res PN) (file : Str) (fuel : Nat) (pre : List (Str × PN))
    (k : Str) (n : PN) (post : List (Str × PN)) (hk : k ≠ env.directive) :
    resolveKids env child file (fuel + 1) pre.length (pre ++ (k, n) :: post) =
      (do let cs' ← resolveKids env child file fuel 0 n.children
          resolveKids env child file fuel (pre ++ [(k, PN.mk n.acc n.value cs')]).length
            ((pre ++ [(k, PN.mk n.acc n.value cs')]) ++ post)) := by
  conv => lhs; rw [resolveKids]
  simp [hk]

theorem clear_value (n : PN) : n.clear.value = n.value := by
  obtain ⟨a, v, cs⟩ := n; rfl

theorem file_name (d : PN) : (firstChild b!"file" (kids d) = none ∧
      getKeyed (fun c => .ok c.value) b!"file" d = .throws .flutError) ∨
    ∃ c t', firstChild b!"file" (kids d) = some c ∧ getKeyed (fun c => .ok c.value) b!"file" d = .ok (c.value, t') := by
  obtain ⟨a, v, cs⟩ := d
  rcases getKeyed_spec (fun c => Res.ok c.value) b!"file" a v cs with h | ⟨pre, n, post, rfl, h1, h2, h3⟩
  · exact Or.inl h
  · exact Or.inr ⟨n, _, h2, by rw [h3]; simp [clear_value]; rfl⟩

theorem merge_wish (asBool : Str → Bool) (d : PN) : ∃ b t',
    getDef (fun c => .ok (asBool c.value)) b!"merge_children" false d = .ok (b, t') ∧
      (b = true ↔ WantsMerge asBool d) := by
  rw [getDef_eq]
  obtain ⟨a, v, cs⟩ := d
  rcases getAnyDef_spec (fun c => Res.ok (asBool c.value)) false [b!"merge_children"] a v cs with
    ⟨t', h1, h2, h3⟩ | ⟨ks1, k', ks2, n, t', h0, h1, h2, h3, h4⟩
  · refine ⟨_, _, h3, ?_⟩
    have := h1 b!"merge_children" (by simp)
    simp [WantsMerge, kids, this]
  · have : k' = b!"merge_children" := by
      cases ks1 with
      | nil => simp at h0; exact h0.1.symm
      | cons x xs => simp at h0
    subst this
    refine ⟨asBool n.value, t', by rw [h4]; simp [clear_value], ?_⟩
    simp [WantsMerge, kids, h2]

/-- The rest of the iteration after loading an included file. -/
def afterInclude (env : IncludeEnv) (child : Str → Res PN) (file : Str) (fuel : Nat) (mergeChildren : Bool)
    (pre post : List (Str × PN)) (props : PN) : Res (List (Str × PN)) :=
  match props.children with
  | [(k', root)] =>
    if mergeChildren then resolveKids env child file fuel 0 (mergeLoop false (pre ++ post) root.children)
    else resolveKids env child file fuel pre.length (pre ++ (k', root.clear) :: post)
  | _ => .throws .flutError

/-- What happens at a directive. -/
theorem directive_step (env : IncludeEnv) (file : Str) (d : PN) :
    (∃ e : Res (List (Str × PN)), e ≠ .diverges ∧ (∀ x, e ≠ .ok x) ∧ (∀ target, ¬ Names file d target) ∧
      ∀ child fuel pre post, resolveKids env child file (fuel + 1) pre.length (pre ++ (env.directive, d) :: post) = e) ∨
    ∃ target b, Names file d target ∧ (b = true ↔ WantsMerge env.asBool d) ∧
      ∀ child fuel pre post, resolveKids env child file (fuel + 1) pre.length (pre ++ (env.directive, d) :: post) =
        (child target >>= afterInclude env child file fuel b pre post) := by
  cases hp : parentPath file with
  | throws e => exact Or.inl ⟨.throws e, by simp, by simp, by simp [Names, hp], by simp [resolveKids, hp]⟩
  | ub => exact Or.inl ⟨.ub, by simp, by simp, by simp [Names, hp], by simp [resolveKids, hp]⟩
  | diverges =>
    simp only [parentPath, substr] at hp
    split at hp
    · split at hp <;> cases hp
    · cases hp
  | ok folder =>
    rcases file_name d with ⟨h1, h2⟩ | ⟨c, t', h1, h2⟩
    · exact Or.inl ⟨.throws .flutError, by simp, by simp, by simp [Names, hp, h1], by simp [resolveKids, hp, h2]⟩
    · obtain ⟨b, t'', h3, h4⟩ := merge_wish env.asBool d
      right
      refine ⟨_, b, ⟨folder, c, hp, h1, rfl⟩, h4, fun child fuel pre post => ?_⟩
      simp only [resolveKids, hp, h2, h3, Res.bind_ok, List.getElem?_append_right (Nat.le_refl _), Nat.sub_self,
        List.getElem?_cons_zero, if_true, eraseIdx_split]
      cases child (join folder c.value) <;> try rfl
      simp only [Res.bind_ok, afterInclude, List.take_left, List.drop_left, clearAll, List.append_assoc,
        List.singleton_append]
      rename_i t
      obtain ⟨a, v, cs⟩ := t
      rcases cs with _ | ⟨x, _ | ⟨y, ys⟩⟩ <;> rfl

theorem afterInclude_ok {env : IncludeEnv} {child : Str → Res PN} {file : Str} {fuel : Nat} {b : Bool}
    {pre post : List (Str × PN)} {props : PN} {res : List (Str × PN)}
    (h : afterInclude env child file fuel b pre post props = .ok res) : ∃ k root, kids props = [(k, root)] := by
  rw [afterInclude] at h
  split at h
  · rename_i k root hs
    exact ⟨k, root, by cases props; exact hs⟩
  · cases h

theorem afterInclude_eq {env : IncludeEnv} {child : Str → Res PN} {file : Str} {fuel : Nat} {b : Bool}
    {pre post : List (Str × PN)} {props : PN} {k : Str} {root : PN} (h : kids props = [(k, root)]) :
    afterInclude env child file fuel b pre post props =
      if b then resolveKids env child file fuel 0 (mergeLoop false (pre ++ post) root.children)
      else resolveKids env child file fuel pre.length (pre ++ (k, root.clear) :: post) := by
  have : props.children = [(k, root)] := by cases props; exact h
  simp only [afterInclude, this]

/-- The result has no directives. -/
theorem resolveKids_clean (env : IncludeEnv) (child : Str → Res PN) (file : Str)
    (fuel : Nat) : ∀ (pre rest res : List (Str × PN)), (∀ kn ∈ pre, CleanKid env.directive kn) →
      resolveKids env child file fuel pre.length (pre ++ rest) = .ok res → ∀ kn ∈ res, CleanKid env.directive kn := by
  induction fuel with
  | zero => intro pre rest res _ h; simp [resolveKids] at h
  | succ fuel ih =>
    intro pre rest res hpre h
    cases rest with
    | nil =>
      rw [List.append_nil, resolveKids_end] at h
      cases h
      exact hpre
    | cons x rest =>
      obtain ⟨k, n⟩ := x
      by_cases hk : k = env.directive
      · subst hk
        rcases directive_step env file n with ⟨e, -, h1, -, h3⟩ | ⟨target, b, -, -, h4⟩
        · rw [h3] at h
          exact absurd h (h1 _)
        · rw [h4, Res.bind_eq_ok] at h
          obtain ⟨t, h2, h⟩ := h
          obtain ⟨k, root, h3⟩ := afterInclude_ok h
          rw [afterInclude_eq h3] at h
          split at h
          · exact ih [] _ res (by simp) h
          · exact ih pre _ res hpre h
      · rw [resolveKids_keep env child file fuel pre k n rest hk] at h
        rw [Res.bind_eq_ok] at h
        obtain ⟨cs', h1, h2⟩ := h
        have hc := ih [] n.children cs' (by simp) (by simpa using h1)
        refine ih _ rest res ?_ h2
        intro kn hkn
        rcases List.mem_append.1 hkn with hkn | hkn
        · exact hpre kn hkn
        · simp at hkn
          subst hkn
          exact ⟨hk, noDirective_iff.2 hc⟩

theorem loadWithInclude_good (env : IncludeEnv) (fuel r : Nat) : GoodChild env.directive (loadWithInclude env fuel r) := by
  cases r with
  | zero => intro f t h; simp [loadWithInclude] at h
  | succ r =>
    intro f t h
    simp only [loadWithInclude] at h
    rw [Res.bind_eq_ok] at h
    obtain ⟨n, -, h⟩ := h
    rw [Res.bind_eq_ok] at h
    obtain ⟨cs, h1, h2⟩ := h
    injection h2 with h2
    subst h2
    refine ⟨noDirective_clear _ (noDirective_iff.2 (resolveKids_clean env _ f fuel [] n.children cs (by simp)
      (by simpa using h1))), ?_⟩
    exact (sameTree_iff _ _).1 (sameTree_clear _)

/-! ### Termination -/

/-- From some bound on, the loop gives a fixed result. -/
def Settles (env : IncludeEnv) (c : Nat → Str → Res PN) (file : Str) (i : Nat) (cs : List (Str × PN)) : Prop :=
  ∃ N r, r ≠ .diverges ∧ ∀ F n, N ≤ F → N ≤ n → resolveKids env (c F) file n i cs = r

theorem settles_keep (env : IncludeEnv) (c : Nat → Str → Res PN) (file : Str) (pre : List (Str × PN)) (k : Str) (n : PN)
    (post : List (Str × PN)) (hk : k ≠ env.directive) (h1 : Settles env c file 0 n.children)
    (h2 : ∀ cs', (∃ F m, resolveKids env (c F) file m 0 n.children = .ok cs') →
      Settles env c file (pre ++ [(k, PN.mk n.acc n.value cs')]).length ((pre ++ [(k, PN.mk n.acc n.value cs')]) ++ post)) :
    Settles env c file pre.length (pre ++ (k, n) :: post) := by
  obtain ⟨N, r, hr, h1⟩ := h1
  cases r with
  | diverges => exact absurd rfl hr
  | throws e =>
    refine ⟨N + 1, .throws e, by simp, fun F m hF hm => ?_⟩
    obtain ⟨m, rfl⟩ : ∃ m', m = m' + 1 := ⟨m - 1, by omega⟩
    rw [resolveKids_keep _ _ _ _ _ _ _ _ hk, h1 F m (by omega) (by omega)]; rfl
  | ub =>
    refine ⟨N + 1, .ub, by simp, fun F m hF hm => ?_⟩
    obtain ⟨m, rfl⟩ : ∃ m', m = m' + 1 := ⟨m - 1, by omega⟩
    rw [resolveKids_keep _ _ _ _ _ _ _ _ hk, h1 F m (by omega) (by omega)]; rfl
  | ok cs' =>
    obtain ⟨N', r', hr', h2⟩ := h2 cs' ⟨N, N, h1 N N (by omega) (by omega)⟩
    refine ⟨N + N' + 1, r', hr', fun F m hF hm => ?_⟩
    obtain ⟨m, rfl⟩ : ∃ m', m = m' + 1 := ⟨m - 1, by omega⟩
    rw [resolveKids_keep _ _ _ _ _ _ _ _ hk, h1 F m (by omega) (by omega), Res.bind_ok]
    exact h2 F m (by omega) (by omega)

theorem settles_end (env : IncludeEnv) (c : Nat → Str → Res PN) (file : Str) (pre : List (Str × PN)) :
    Settles env c file pre.length pre := by
  refine ⟨1, .ok pre, by simp, fun F m hF hm => ?_⟩
  obtain ⟨m, rfl⟩ : ∃ m', m = m' + 1 := ⟨m - 1, by omega⟩
  exact resolveKids_end _ _ _ _ _

/-- A tree without directives is left as it is. -/
theorem settles_clean (env : IncludeEnv) (c : Nat → Str → Res PN) (file : Str) (n : PN)
    (h : NoDirective env.directive n) : ∃ N, ∀ F m, N ≤ m →
      resolveKids env (c F) file m 0 n.children = .ok n.children := by
  induction n using PN.induct with
  | h a v cs ih =>
    rw [noDirective_iff] at h
    have key : ∀ post pre, pre ++ post = cs → ∃ N, ∀ F m, N ≤ m →
        resolveKids env (c F) file m pre.length (pre ++ post) = .ok cs := by
      intro post
      induction post with
      | nil =>
        intro pre hp
        refine ⟨1, fun F m hm => ?_⟩
        obtain ⟨m, rfl⟩ : ∃ m', m = m' + 1 := ⟨m - 1, by omega⟩
        rw [List.append_nil] at *
        subst hp
        exact resolveKids_end _ _ _ _ _
      | cons x xs ihx =>
        obtain ⟨k, n⟩ := x
        intro pre hp
        have hx : CleanKid env.directive (k, n) := h _ (by rw [← hp]; simp)
        obtain ⟨N1, h1⟩ := ih (k, n) (by rw [← hp]; simp) hx.2
        obtain ⟨N2, h2⟩ := ihx (pre ++ [(k, n)]) (by rw [← hp]; simp)
        refine ⟨N1 + N2 + 1, fun F m hm => ?_⟩
        obtain ⟨m, rfl⟩ : ∃ m', m = m' + 1 := ⟨m - 1, by omega⟩
        rw [resolveKids_keep _ _ _ _ _ _ _ _ hx.1]
        simp only at h1
        rw [h1 F m (by omega), Res.bind_ok]
        have hn : PN.mk n.acc n.value n.children = n := by cases n; rfl
        rw [hn]
        exact h2 F m (by omega)
    exact key cs [] rfl

/-- The number of directives in a list of children. -/
def directives (dir : Str) (cs : List (Str × PN)) : Nat := (cs.filter fun kn => decide (kn.1 = dir)).length

theorem directives_append (dir : Str) (a b : List (Str × PN)) :
    directives dir (a ++ b) = directives dir a + directives dir b := by simp [directives]

theorem directives_cons (dir : Str) (k : Str) (n : PN) (b : List (Str × PN)) :
    directives dir ((k, n) :: b) = (if k = dir then 1 else 0) + directives dir b := by
  rw [directives, List.filter_cons]
  by_cases h : k = dir
  · simp [h, directives]; omega
  · simp [h, directives]

theorem directives_clean (dir : Str) (a : List (Str × PN)) (h : ∀ kn ∈ a, CleanKid dir kn) : directives dir a = 0 := by
  rw [directives, List.length_eq_zero_iff, List.filter_eq_nil_iff]
  intro kn hk
  simpa using (h kn hk).1

theorem settles_main (env : IncludeEnv) (c : Nat → Str → Res PN) (file : Str)
    (hg : ∀ F, GoodChild env.directive (c F))
    (hc : ∀ f, ∃ N r, r ≠ .diverges ∧ ∀ F, N ≤ F → c F f = r) (m : Nat) :
    ∀ post pre, directives env.directive (pre ++ post) ≤ m →
      (∀ kn ∈ pre ++ post, Settles env c file 0 kn.2.children) → Settles env c file pre.length (pre ++ post) := by
  have hclean : ∀ n, NoDirective env.directive n → Settles env c file 0 n.children := by
    intro n hn
    obtain ⟨N, h⟩ := settles_clean env c file n hn
    exact ⟨N, _, by simp, fun F m _ hm => h F m hm⟩
  induction m with
  | zero =>
    intro post
    induction post with
    | nil => intro pre _ _; rw [List.append_nil]; exact settles_end _ _ _ _
    | cons x xs ih =>
      obtain ⟨k, n⟩ := x
      intro pre hd hs
      have hk : k ≠ env.directive := by
        intro h
        rw [directives_append, directives_cons, if_pos h] at hd
        omega
      refine settles_keep _ _ _ _ _ _ _ hk (hs (k, n) (by simp)) fun cs' hcs => ih _ ?_ ?_
      · rw [directives_append, directives_cons, if_neg hk] at hd
        rw [directives_append, directives_append, directives_cons, if_neg hk]
        simp [directives] at *
        omega
      · intro kn hkn
        obtain ⟨F, m, hF⟩ := hcs
        simp only [List.append_assoc, List.mem_append, List.mem_cons, List.not_mem_nil, or_false] at hkn
        rcases hkn with h | rfl | h
        · exact hs kn (by simp [h])
        · exact hclean _ (noDirective_iff.2 (resolveKids_clean env _ file m [] n.children cs' (by simp)
            (by simpa using hF)))
        · exact hs kn (by simp [h])
  | succ m ihm =>
    intro post
    induction post with
    | nil => intro pre _ _; rw [List.append_nil]; exact settles_end _ _ _ _
    | cons x xs ih =>
      obtain ⟨k, n⟩ := x
      intro pre hd hs
      by_cases hk : k = env.directive
      · subst hk
        rcases directive_step env file n with ⟨e, h0, -, -, h3⟩ | ⟨target, b, -, -, h4⟩
        · refine ⟨1, e, h0, fun F m hF hm => ?_⟩
          obtain ⟨m, rfl⟩ : ∃ m', m = m' + 1 := ⟨m - 1, by omega⟩
          exact h3 _ _ _ _
        · obtain ⟨N, r, hr, hN⟩ := hc target
          have hd' : directives env.directive pre + directives env.directive xs ≤ m := by
            rw [directives_append, directives_cons, if_pos rfl] at hd
            omega
          have step : ∀ X : Res (List (Str × PN)), X ≠ .diverges →
              (∃ N', ∀ F m, N' ≤ F → N' ≤ m → (r >>= afterInclude env (c F) file m b pre xs) = X) →
              Settles env c file pre.length (pre ++ (env.directive, n) :: xs) := by
            rintro X hX ⟨N', hN'⟩
            refine ⟨N + N' + 1, X, hX, fun F m hF hm => ?_⟩
            obtain ⟨m, rfl⟩ : ∃ m', m = m' + 1 := ⟨m - 1, by omega⟩
            rw [h4, hN F (by omega)]
            exact hN' F m (by omega) (by omega)
          cases r with
          | diverges => exact absurd rfl hr
          | throws e => exact step (.throws e) (by simp) ⟨0, by simp⟩
          | ub => exact step .ub (by simp) ⟨0, by simp⟩
          | ok t =>
            by_cases hs' : ∃ k root, kids t = [(k, root)]
            · obtain ⟨k, root, hs'⟩ := hs'
              have hroot : CleanKid env.directive (k, root) := by
                have := (hg N _ _ (hN N (by omega))).1
                obtain ⟨a, v, cs⟩ := t
                exact noDirective_iff.1 this _ (by simp [kids] at hs'; simp [hs'])
              have hsub : ∀ kn ∈ pre ++ xs, Settles env c file 0 kn.2.children := by
                intro kn hkn
                refine hs kn ?_
                simp only [List.mem_append, List.mem_cons] at *
                rcases hkn with h | h <;> simp [h]
              cases b with
              | true =>
                have hnew : ∀ kn ∈ newKids ((pre ++ xs).map Prod.fst) (clearAll root.children),
                    CleanKid env.directive kn := by
                  intro kn hkn
                  have h1 := newKids_sub _ _ kn hkn
                  have h2 := noDirective_clear _ hroot.2
                  obtain ⟨a, v, cs⟩ := root
                  exact noDirective_iff.1 h2 kn h1
                obtain ⟨N', X, hX, hN'⟩ := ihm (mergeLoop false (pre ++ xs) root.children) [] (by
                  rw [List.nil_append, mergeLoop_newKids, directives_append, directives_append,
                    directives_clean _ _ hnew]
                  omega) (by
                  rw [List.nil_append, mergeLoop_newKids]
                  intro kn hkn
                  rcases List.mem_append.1 hkn with h | h
                  · exact hsub kn h
                  · exact hclean _ (hnew kn h).2)
                refine step X hX ⟨N', fun F m hF hm => ?_⟩
                rw [Res.bind_ok, afterInclude_eq hs']
                exact hN' F m hF hm
              | false =>
                obtain ⟨N', X, hX, hN'⟩ := ihm ((k, root.clear) :: xs) pre (by
                  rw [directives_append, directives_cons, if_neg hroot.1]
                  omega) (by
                  intro kn hkn
                  simp only [List.mem_append, List.mem_cons] at hkn
                  rcases hkn with h | rfl | h
                  · exact hsub kn (by simp [h])
                  · exact hclean _ (noDirective_clear _ hroot.2)
                  · exact hsub kn (by simp [h]))
                refine step X hX ⟨N', fun F m hF hm => ?_⟩
                rw [Res.bind_ok, afterInclude_eq hs']
                exact hN' F m hF hm
            · refine step (.throws .flutError) (by simp) ⟨0, fun F m _ _ => ?_⟩
              rw [Res.bind_ok, afterInclude]
              split
              · rename_i k root h
                exact absurd ⟨k, root, by cases t; exact h⟩ hs'
              · rfl
      · refine settles_keep _ _ _ _ _ _ _ hk (hs (k, n) (by simp)) fun cs' hcs => ih _ ?_ ?_
        · rw [directives_append, directives_cons, if_neg hk] at hd
          rw [directives_append, directives_append, directives_cons, if_neg hk]
          simp [directives] at *
          omega
        · intro kn hkn
          obtain ⟨F, m, hF⟩ := hcs
          simp only [List.append_assoc, List.mem_append, List.mem_cons, List.not_mem_nil, or_false] at hkn
          rcases hkn with h | rfl | h
          · exact hs kn (by simp [h])
          · exact hclean _ (noDirective_iff.2 (resolveKids_clean env _ file m [] n.children cs' (by simp)
              (by simpa using hF)))
          · exact hs kn (by simp [h])

theorem settles_node (env : IncludeEnv) (c : Nat → Str → Res PN) (file : Str)
    (hg : ∀ F, GoodChild env.directive (c F))
    (hc : ∀ f, ∃ N r, r ≠ .diverges ∧ ∀ F, N ≤ F → c F f = r) (n : PN) : Settles env c file 0 n.children := by
  induction n using PN.induct with
  | h a v cs ih => exact settles_main env c file hg hc _ cs [] (Nat.le_refl _) ih

theorem loadWithInclude_settles (env : IncludeEnv) (hl : ∀ f, env.load f ≠ .diverges) (r : Nat) (f : Str) :
    ∃ N x, x ≠ .diverges ∧ ∀ fuel, N ≤ fuel → loadWithInclude env fuel r f = x := by
  induction r generalizing f with
  | zero => exact ⟨0, .throws .flutError, by simp, fun _ _ => rfl⟩
  | succ r ih =>
    cases hf : env.load f with
    | diverges => exact absurd hf (hl f)
    | throws e => exact ⟨0, .throws e, by simp, fun _ _ => by simp [loadWithInclude, hf]⟩
    | ub => exact ⟨0, .ub, by simp, fun _ _ => by simp [loadWithInclude, hf]⟩
    | ok n =>
      obtain ⟨N, x, hx, h⟩ := settles_node env (fun fuel => loadWithInclude env fuel r) f
        (fun F => loadWithInclude_good env F r) ih n
      refine ⟨N, x >>= fun cs => .ok (clear (.mk n.acc n.value cs)), ?_, fun fuel hN => ?_⟩
      · cases x <;> simp_all
      · simp [loadWithInclude, hf, h fuel fuel hN hN]

/-! ### Chains -/

theorem names_unique {file : Str} {d : PN} {t1 t2 : Str} (h1 : Names file d t1) (h2 : Names file d t2) : t1 = t2 := by
  obtain ⟨f1, c1, a1, b1, e1⟩ := h1
  obtain ⟨f2, c2, a2, b2, e2⟩ := h2
  rw [a1] at a2
  rw [b1] at b2
  injection a2 with a2
  injection b2 with b2
  rw [e1, e2, a2, b2]

theorem resolveKids_loads (env : IncludeEnv) (child : Str → Res PN) (file : Str) (fuel : Nat) :
    ∀ (pre rest res : List (Str × PN)), resolveKids env child file fuel pre.length (pre ++ rest) = .ok res →
      ∀ a v d target, HasDirective env.directive (.mk a v rest) d → Names file d target →
        ∃ t, child target = .ok t := by
  induction fuel with
  | zero => intro pre rest res h; simp [resolveKids] at h
  | succ fuel ih =>
    intro pre rest res h a v d target hd hn
    cases rest with
    | nil => cases hd with
      | here h => simp at h
      | inside h => simp at h
    | cons x rest =>
      obtain ⟨k, n⟩ := x
      by_cases hk : k = env.directive
      · subst hk
        rcases directive_step env file n with ⟨e, -, h1, -, h3⟩ | ⟨target', b, hn', -, h4⟩
        · rw [h3] at h
          exact absurd h (h1 _)
        · rw [h4, Res.bind_eq_ok] at h
          obtain ⟨t, h2, h⟩ := h
          obtain ⟨k, root, h3⟩ := afterInclude_ok h
          rw [afterInclude_eq h3] at h
          have htail : ∀ (zs : List (Str × PN)), (∀ kn ∈ rest, kn ∈ zs) →
              HasDirective env.directive (.mk a v zs) d ∨ d = n := by
            intro zs hz
            cases hd with
            | here hm =>
              rcases List.mem_cons.1 hm with hm | hm
              · right; injection hm
              · exact Or.inl (.here (hz _ hm))
            | inside hm hk hd =>
              rcases List.mem_cons.1 hm with hm | hm
              · injection hm with hm; exact absurd hm hk
              · exact Or.inl (.inside (hz _ hm) hk hd)
          split at h
          · rcases htail (mergeLoop false (pre ++ rest) root.children) (by
              intro kn hkn; rw [mergeLoop_newKids]; simp [hkn]) with hd' | rfl
            · exact ih [] _ res h a v d target hd' hn
            · rw [names_unique hn hn']; exact ⟨t, h2⟩
          · rcases htail ((k, root.clear) :: rest) (by intro kn hkn; simp [hkn]) with hd' | rfl
            · exact ih pre _ res h a v d target hd' hn
            · rw [names_unique hn hn']; exact ⟨t, h2⟩
      · rw [resolveKids_keep env child file fuel pre k n rest hk, Res.bind_eq_ok] at h
        obtain ⟨cs', h1, h2⟩ := h
        cases hd with
        | here hm =>
          rcases List.mem_cons.1 hm with hm | hm
          · injection hm with hm; exact absurd hm.symm hk
          · exact ih _ rest res h2 a v d target (.here hm) hn
        | inside hm hk' hd =>
          rcases List.mem_cons.1 hm with hm | hm
          · injection hm with _ hm
            rw [hm] at hd
            obtain ⟨a', v', cs⟩ := n
            exact ih [] cs cs' h1 a' v' d target hd hn
          · exact ih _ rest res h2 a v d target (.inside hm hk' hd) hn

theorem loadWithInclude_chain (env : IncludeEnv) (fuel r : Nat) (file : Str) (t : PN)
    (h : loadWithInclude env fuel r file = .ok t) : ¬ IncludeChain env.load env.directive r file := by
  induction r generalizing file t with
  | zero => simp [loadWithInclude] at h
  | succ r ih =>
    intro hc
    cases hc with
    | succ hl hd hn hc =>
      rename_i t0 d target
      simp only [loadWithInclude, hl, Res.bind_ok, Res.bind_eq_ok] at h
      obtain ⟨cs, h1, -⟩ := h
      obtain ⟨a, v, ks⟩ := t0
      obtain ⟨t', ht'⟩ := resolveKids_loads env _ file fuel [] ks cs h1 a v d target hd hn
      exact ih target t' ht' hc

/-! ### The expanded document -/

theorem expands_clean {asBool : Str → Bool} {dir : Str} {Inc : Str → PN → Prop} {file : Str} (n : PN)
    (hn : NoDirective dir n) : ∀ n', Expands asBool dir Inc file n n' → n' = n := by
  induction n using PN.induct with
  | h a v cs ih =>
    rw [noDirective_iff] at hn
    intro n' h
    cases h with
    | mk h =>
      rename_i ds
      have key : ∀ (rest done ds : List (Str × PN)), (∀ kn ∈ rest, kn ∈ cs) →
          ExpandsKids asBool dir Inc file done rest ds → ds = done ++ rest := by
        intro rest
        induction rest with
        | nil => intro done ds _ h; cases h; simp
        | cons x xs ihx =>
          obtain ⟨k, n⟩ := x
          intro done ds hs h
          have hx := hn (k, n) (hs _ (by simp))
          cases h with
          | keep h1 h2 h3 =>
            have := ih (k, n) (hs _ (by simp)) hx.2 _ h2
            subst this
            have := ihx _ _ (fun kn hk => hs kn (by simp [hk])) h3
            simpa using this
          | insert => exact absurd rfl hx.1
          | merge => exact absurd rfl hx.1
      rw [key cs [] ds (fun _ h => h) h]
      rfl

theorem expandsKids_skip {asBool : Str → Bool} {dir : Str} {Inc : Str → PN → Prop} {file : Str}
    (pre : List (Str × PN)) : ∀ (done rest res : List (Str × PN)), (∀ kn ∈ pre, CleanKid dir kn) →
      ExpandsKids asBool dir Inc file done (pre ++ rest) res →
      ExpandsKids asBool dir Inc file (done ++ pre) rest res := by
  induction pre with
  | nil => intro done rest res _ h; simpa using h
  | cons x xs ih =>
    obtain ⟨k, n⟩ := x
    intro done rest res hc h
    have hx := hc (k, n) (by simp)
    rw [List.cons_append] at h
    cases h with
    | keep h1 h2 h3 =>
      have := expands_clean n hx.2 _ h2
      subst this
      rw [List.append_cons]
      exact ih _ _ _ (fun kn hk => hc kn (by simp [hk])) h3
    | insert => exact absurd rfl hx.1
    | merge => exact absurd rfl hx.1

theorem resolveKids_expands (env : IncludeEnv) (child : Str → Res PN) (file : Str)
    (hg : GoodChild env.directive child) (Inc : Str → PN → Prop) (hi : ∀ f t, child f = .ok t → Inc f t) (fuel : Nat) :
    ∀ (pre rest res : List (Str × PN)), (∀ kn ∈ pre, CleanKid env.directive kn) →
      resolveKids env child file fuel pre.length (pre ++ rest) = .ok res →
      ExpandsKids env.asBool env.directive Inc file pre rest res := by
  induction fuel with
  | zero => intro pre rest res _ h; simp [resolveKids] at h
  | succ fuel ih =>
    intro pre rest res hpre h
    cases rest with
    | nil =>
      rw [List.append_nil, resolveKids_end] at h
      cases h
      exact .nil
    | cons x rest =>
      obtain ⟨k, n⟩ := x
      by_cases hk : k = env.directive
      · subst hk
        rcases directive_step env file n with ⟨e, -, h1, -, h3⟩ | ⟨target, b, hn, hb, h4⟩
        · rw [h3] at h
          exact absurd h (h1 _)
        · rw [h4, Res.bind_eq_ok] at h
          obtain ⟨t, h2, h⟩ := h
          obtain ⟨k, root, h3⟩ := afterInclude_ok h
          rw [afterInclude_eq h3] at h
          have hgt := hg _ _ h2
          have hroot : CleanKid env.directive (k, root) := by
            have := hgt.1
            obtain ⟨a, v, cs⟩ := t
            exact noDirective_iff.1 this _ (by simp [kids] at h3; simp [h3])
          have hclr : root.clear = root := clear_single hgt.2 (by cases t; exact h3)
          split at h
          · rename_i hbt
            have := ih [] _ res (by simp) h
            rw [mergeLoop_newKids, List.append_assoc] at this
            have := expandsKids_skip pre [] _ res hpre this
            refine .merge hn (hb.1 hbt) (hi _ _ h2) h3 ?_
            rw [clear_kids hclr] at this
            have e : kids root = root.children := by cases root; rfl
            rw [e]
            exact this
          · rename_i hbf
            rw [hclr] at h
            refine .insert hn (fun hw => hbf (hb.2 hw)) (hi _ _ h2) h3 ?_
            have := ih pre _ res hpre h
            exact expandsKids_skip [(k, root)] pre rest res (by simpa using hroot) this
      · rw [resolveKids_keep env child file fuel pre k n rest hk, Res.bind_eq_ok] at h
        obtain ⟨cs', h1, h2⟩ := h
        have hc := resolveKids_clean env child file fuel [] n.children cs' (by simp) h1
        have hn' := ih [] n.children cs' (by simp) h1
        have hn : PN.mk n.acc n.value n.children = n := by cases n; rfl
        refine .keep hk (n' := .mk n.acc n.value cs') ?_ (ih _ rest res ?_ h2)
        · have := Expands.mk (a := n.acc) (v := n.value) hn'
          rwa [hn] at this
        · intro kn hkn
          rcases List.mem_append.1 hkn with hkn | hkn
          · exact hpre kn hkn
          · simp at hkn
            subst hkn
            exact ⟨hk, noDirective_iff.2 hc⟩

theorem loadWithInclude_expanded (env : IncludeEnv) (fuel r : Nat) (file : Str) (t : PN)
    (h : loadWithInclude env fuel r file = .ok t) : ExpandedFile env.load env.asBool env.directive r file t := by
  induction r generalizing file t with
  | zero => simp [loadWithInclude] at h
  | succ r ih =>
    simp only [loadWithInclude, Res.bind_eq_ok] at h
    obtain ⟨n, hl, cs, h1, h2⟩ := h
    injection h2 with h2
    refine ⟨n, .mk n.acc n.value cs, hl, ?_, h2.symm⟩
    have := Expands.mk (a := n.acc) (v := n.value) (resolveKids_expands env _ file (loadWithInclude_good env fuel r) _ ih fuel
      [] n.children cs (by simp) h1)
    have hn : PN.mk n.acc n.value n.children = n := by cases n; rfl
    rwa [hn] at this

theorem expands_noDirective {asBool : Str → Bool} {dir : Str} {Inc : Str → PN → Prop} {file : Str}
    (hInc : ∀ f t, Inc f t → NoDirective dir t) {n n' : PN} (h : Expands asBool dir Inc file n n') :
    NoDirective dir n' := by
  refine Expands.rec (asBool := asBool) (dir := dir) (Inc := Inc) (file := file)
    (motive_1 := fun n n' _ => NoDirective dir n')
    (motive_2 := fun done rest res _ => (∀ kn ∈ done, CleanKid dir kn) → ∀ kn ∈ res, CleanKid dir kn)
    ?_ ?_ ?_ ?_ ?_ h
  · intro a v cs ds _ ih
    exact noDirective_iff.2 (ih (by simp))
  · intro done h; exact h
  · intro done k n n' rest res hk _ _ ih1 ih2 hd
    refine ih2 fun kn hkn => ?_
    rcases List.mem_append.1 hkn with hkn | hkn
    · exact hd kn hkn
    · simp at hkn; subst hkn; exact ⟨hk, ih1⟩
  · intro done d target t k root rest res _ _ hi hk _ ih hd
    have hr : CleanKid dir (k, root) := by
      have := hInc _ _ hi
      obtain ⟨a, v, cs⟩ := t
      exact noDirective_iff.1 this _ (by simp [kids] at hk; simp [hk])
    refine ih fun kn hkn => ?_
    rcases List.mem_append.1 hkn with hkn | hkn
    · exact hd kn hkn
    · simp at hkn; subst hkn; exact hr
  · intro done d target t k root rest res _ _ _ _ _ ih hd
    exact ih hd

theorem resolveKids_walk (env : IncludeEnv) (c : Nat → Str → Res PN) (file : Str) (pre : List (Str × PN))
    (h : ∀ kn ∈ pre, CleanKid env.directive kn) : ∀ done, ∃ N, ∀ F m rest, N ≤ m →
      resolveKids env (c F) file (m + pre.length) done.length (done ++ (pre ++ rest)) =
        resolveKids env (c F) file m (done ++ pre).length ((done ++ pre) ++ rest) := by
  induction pre with
  | nil => intro done; exact ⟨0, by simp⟩
  | cons x xs ih =>
    obtain ⟨k, n⟩ := x
    intro done
    have hx := h (k, n) (by simp)
    obtain ⟨N1, h1⟩ := settles_clean env c file n hx.2
    obtain ⟨N2, h2⟩ := ih (fun kn hk => h kn (by simp [hk])) (done ++ [(k, n)])
    refine ⟨N1 + N2, fun F m rest hm => ?_⟩
    rw [List.length_cons, ← Nat.add_assoc, List.cons_append, resolveKids_keep _ _ _ _ _ _ _ _ hx.1,
      h1 F _ (by omega), Res.bind_ok]
    have he : PN.mk n.acc n.value n.children = n := by cases n; rfl
    rw [he, h2 F m rest (by omega)]
    simp

/-- Conversely, the expansion described by the specification is computed. -/
theorem expands_computed (env : IncludeEnv) (c : Nat → Str → Res PN) (file : Str) (Inc : Str → PN → Prop)
    (hInc : ∀ f t, Inc f t → NoDirective env.directive t ∧ t.clear = t ∧ ∃ N, ∀ F, N ≤ F → c F f = .ok t) {n n' : PN}
    (h : Expands env.asBool env.directive Inc file n n') : n'.acc = n.acc ∧ n'.value = n.value ∧
      ∃ N, ∀ F m, N ≤ F → N ≤ m → resolveKids env (c F) file m 0 n.children = .ok n'.children := by
  refine Expands.rec (asBool := env.asBool) (dir := env.directive) (Inc := Inc) (file := file)
    (motive_1 := fun n n' _ => n'.acc = n.acc ∧ n'.value = n.value ∧
      ∃ N, ∀ F m, N ≤ F → N ≤ m → resolveKids env (c F) file m 0 n.children = .ok n'.children)
    (motive_2 := fun done rest res _ => (∀ kn ∈ done, CleanKid env.directive kn) →
      ∃ N, ∀ F m, N ≤ F → N ≤ m → resolveKids env (c F) file m done.length (done ++ rest) = .ok res)
    ?_ ?_ ?_ ?_ ?_ h
  · intro a v cs ds _ ih
    exact ⟨rfl, rfl, ih (by simp)⟩
  · intro done _
    refine ⟨1, fun F m _ hm => ?_⟩
    obtain ⟨m, rfl⟩ : ∃ m', m = m' + 1 := ⟨m - 1, by omega⟩
    rw [List.append_nil]
    exact resolveKids_end _ _ _ _ _
  · rintro done k n n' rest res hk hx _ ⟨ha, hv, N1, h1⟩ ih2 hd
    have hn' : PN.mk n.acc n.value n'.children = n' := by rw [← ha, ← hv]; cases n'; rfl
    have hcl := expands_noDirective (fun f t h => (hInc f t h).1) hx
    obtain ⟨N2, h2⟩ := ih2 (by
      intro kn hkn
      rcases List.mem_append.1 hkn with hkn | hkn
      · exact hd kn hkn
      · simp at hkn; subst hkn; exact ⟨hk, hcl⟩)
    refine ⟨N1 + N2 + 1, fun F m hF hm => ?_⟩
    obtain ⟨m, rfl⟩ : ∃ m', m = m' + 1 := ⟨m - 1, by omega⟩
    rw [resolveKids_keep _ _ _ _ _ _ _ _ hk, h1 F m (by omega) (by omega), Res.bind_ok, hn']
    exact h2 F m (by omega) (by omega)
  · intro done d target t k root rest res hn hw hi hk _ ih hd
    obtain ⟨hi1, hi2, N1, h1⟩ := hInc _ _ hi
    have hr : CleanKid env.directive (k, root) := by
      obtain ⟨a, v, cs⟩ := t
      exact noDirective_iff.1 hi1 _ (by simp [kids] at hk; simp [hk])
    have hclr : root.clear = root := clear_single hi2 (by cases t; exact hk)
    obtain ⟨N2, h2⟩ := ih (by
      intro kn hkn
      rcases List.mem_append.1 hkn with hkn | hkn
      · exact hd kn hkn
      · simp at hkn; subst hkn; exact hr)
    rcases directive_step env file d with ⟨e, -, -, h4, -⟩ | ⟨target', b, hn', hb, h4⟩
    · exact absurd hn (h4 _)
    · rw [names_unique hn' hn] at h4
      have hbf : b = false := by
        cases b with
        | false => rfl
        | true => exact absurd (hb.1 rfl) hw
      obtain ⟨N3, h3⟩ := settles_clean env c file root hr.2
      refine ⟨N1 + N2 + N3 + 2, fun F m hF hm => ?_⟩
      obtain ⟨m, rfl⟩ : ∃ m', m = m' + 2 := ⟨m - 2, by omega⟩
      rw [h4, h1 F (by omega), Res.bind_ok, afterInclude_eq hk, hbf, hclr]
      rw [if_neg (by simp), resolveKids_keep _ _ _ _ _ _ _ _ hr.1, h3 F m (by omega), Res.bind_ok]
      have he : PN.mk root.acc root.value root.children = root := by cases root; rfl
      rw [he]
      exact h2 F m (by omega) (by omega)
  · intro done d target t k root rest res hn hw hi hk _ ih hd
    obtain ⟨hi1, hi2, N1, h1⟩ := hInc _ _ hi
    have hclr : root.clear = root := clear_single hi2 (by cases t; exact hk)
    obtain ⟨N2, h2⟩ := ih hd
    rcases directive_step env file d with ⟨e, -, -, h4, -⟩ | ⟨target', b, hn', hb, h4⟩
    · exact absurd hn (h4 _)
    · rw [names_unique hn' hn] at h4
      obtain ⟨N3, h3⟩ := resolveKids_walk env c file done hd []
      refine ⟨N1 + N2 + N3 + done.length + 1, fun F m hF hm => ?_⟩
      obtain ⟨m, rfl⟩ : ∃ m', m = m' + done.length + 1 := ⟨m - done.length - 1, by omega⟩
      rw [h4, h1 F (by omega), Res.bind_ok, afterInclude_eq hk, hb.2 hw, if_pos rfl, mergeLoop_newKids,
        clear_kids hclr]
      have e : kids root = root.children := by cases root; rfl
      rw [e] at h2
      have h2' := h2 F m (by omega) (by omega)
      have := h3 F m (rest ++ newKids (List.map Prod.fst (done ++ rest)) root.children) (by omega)
      rw [List.nil_append, List.nil_append, List.length_nil] at this
      rw [List.append_assoc, this]
      exact h2'

theorem expanded_clear {load : Str → Res PN} {asBool : Str → Bool} {dir : Str} (r : Nat) (f : Str) (t : PN)
    (h : ExpandedFile load asBool dir r f t) : NoDirective dir t ∧ t.clear = t := by
  induction r generalizing f t with
  | zero => exact h.elim
  | succ r ih =>
    obtain ⟨t0, t1, -, h2, rfl⟩ := h
    exact ⟨noDirective_clear _ (expands_noDirective (fun f t h => (ih f t h).1) h2),
      (sameTree_iff _ _).1 (sameTree_clear _)⟩

theorem expanded_computed (env : IncludeEnv) (r : Nat) (file : Str) (t : PN)
    (h : ExpandedFile env.load env.asBool env.directive r file t) :
    ∃ N, ∀ fuel, N ≤ fuel → loadWithInclude env fuel r file = .ok t := by
  induction r generalizing file t with
  | zero => exact h.elim
  | succ r ih =>
    obtain ⟨t0, t1, h1, h2, rfl⟩ := h
    obtain ⟨ha, hv, N, hN⟩ := expands_computed env (fun fuel => loadWithInclude env fuel r) file _
      (fun f t hf => ⟨(expanded_clear r f t hf).1, (expanded_clear r f t hf).2, ih f t hf⟩) h2
    refine ⟨N, fun fuel hf => ?_⟩
    simp only [loadWithInclude, h1, Res.bind_ok, hN fuel fuel hf hf]
    rw [← ha, ← hv]
    cases t1; rfl

end Flut
