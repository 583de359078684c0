import Verif.Spec.Move
import Verif.Props.CurrentFolder

/-!
# Property theorems for files that include one another: C145
-/

namespace Flut

open Fs

theorem StaysInside.left {a b : Str} (h : StaysInside (a ++ b)) : StaysInside a := by
  refine ⟨fun c hc => h.1 c (List.mem_append_left _ hc), fun i ⟨h1, h2⟩ => h.2 i ⟨?_, ?_⟩⟩
  · rw [List.getElem?_append_left (List.getElem?_eq_some_iff.1 h1).1, h1]
  · rw [List.getElem?_append_left (List.getElem?_eq_some_iff.1 h2).1, h2]

/-- Two names with a separator between them. -/
theorem StaysInside.sep {a b : Str} {s : Byte} (ha : StaysInside a) (hb : StaysInside b) (hs : s ≠ 46) (h0 : s ≠ 0) :
    StaysInside (a ++ s :: b) := by
  refine ⟨?_, ?_⟩
  · intro c hc
    rcases List.mem_append.1 hc with hc | hc
    · exact ha.1 c hc
    · rcases List.mem_cons.1 hc with rfl | hc
      · exact h0
      · exact hb.1 c hc
  · rintro i ⟨h1, h2⟩
    by_cases hi : i + 1 < a.length
    · rw [List.getElem?_append_left (by omega)] at h1
      rw [List.getElem?_append_left hi] at h2
      exact ha.2 i ⟨h1, h2⟩
    · by_cases hi' : i + 1 = a.length
      · rw [List.getElem?_append_right (by omega), hi', Nat.sub_self] at h2
        simp at h2
        exact hs h2
      · by_cases hi2 : i = a.length
        · rw [List.getElem?_append_right (by omega), hi2, Nat.sub_self] at h1
          simp at h1
          exact hs h1
        · rw [List.getElem?_append_right (by omega)] at h1 h2
          obtain ⟨j, rfl⟩ : ∃ j, i = a.length + 1 + j := ⟨i - a.length - 1, by omega⟩
          rw [show a.length + 1 + j - a.length = j + 1 by omega, List.getElem?_cons_succ] at h1
          rw [show a.length + 1 + j + 1 - a.length = j + 1 + 1 by omega, List.getElem?_cons_succ] at h2
          exact hb.2 j ⟨h1, h2⟩

/-- A folder name to which a file name can be appended with one slash: it ends in a character that is no separator. -/
def Plain (p : Str) : Prop := (∀ c ∈ p, c ≠ 0) ∧ ∃ a c, p = a ++ [c] ∧ ¬ Spec.IsSep c

/-- The file that a name included in `p / x` stands for: the same below every folder `p`. -/
theorem include_name (x name : Str) (hx : StaysInside x) (hn : StaysInside name) :
    ∃ y, StaysInside y ∧ ∀ p, Plain p → ∃ d, parentPath (p ++ 47 :: x) = .ok d ∧ join d name = p ++ 47 :: y := by
  have par : ∀ a (c : Byte) b, Spec.IsSep c → (∀ d ∈ b, ¬ Spec.IsSep d) → parentPath (a ++ c :: b) = .ok a := by
    intro a c b hc hb
    unfold parentPath
    rw [lastSep_split hc hb]
    simp [substr]
  rcases exists_lastSep x with h | ⟨u, s, v, rfl, hs, hv⟩
  · refine ⟨name, hn, fun p hp => ⟨p, par p 47 x (Or.inl rfl) h, ?_⟩⟩
    unfold join
    rw [if_pos ((hasFilename_iff p).2 hp.2), List.append_assoc]
    rfl
  · have hu : StaysInside u := hx.left
    rcases List.eq_nil_or_concat u with rfl | ⟨u', c, rfl⟩
    · refine ⟨name, hn, fun p hp => ⟨p ++ [47], ?_, ?_⟩⟩
      · have := par (p ++ [47]) s v hs hv
        simpa using this
      · unfold join
        rw [if_neg]
        · simp
        · intro h
          obtain ⟨a, d, h1, h2⟩ := (hasFilename_iff _).1 h
          have : (47 : Byte) = d := by simpa using (List.append_inj_right' h1 rfl)
          exact h2 (Or.inl this.symm)
    · rw [List.concat_eq_append] at *
      by_cases hc : Spec.IsSep c
      · refine ⟨u' ++ c :: name, hu.left.sep hn ?_ ?_, fun p hp => ⟨p ++ 47 :: (u' ++ [c]), ?_, ?_⟩⟩
        · rcases hc with rfl | rfl <;> decide
        · rcases hc with rfl | rfl <;> decide
        · have := par (p ++ 47 :: (u' ++ [c])) s v hs hv
          simpa using this
        · unfold join
          rw [if_neg]
          · simp
          · intro h
            obtain ⟨a, d, h1, h2⟩ := (hasFilename_iff _).1 h
            rw [← List.cons_append, ← List.append_assoc] at h1
            have : c = d := by simpa using (List.append_inj_right' h1 rfl)
            exact h2 (this ▸ hc)
      · refine ⟨u' ++ [c] ++ 47 :: name, hu.sep hn (by decide) (by decide), fun p hp => ⟨p ++ 47 :: (u' ++ [c]), ?_, ?_⟩⟩
        · have := par (p ++ 47 :: (u' ++ [c])) s v hs hv
          simpa using this
        · unfold join
          rw [if_pos]
          · simp
          · exact (hasFilename_iff _).2 ⟨p ++ 47 :: u', c, by simp, hc⟩

/-! ## Trees whose `file` values stay inside -/

namespace PN

/-- Every value of a node `file` stays inside. -/
def Inside (cs : List (Str × PN)) : Prop := ∀ w ∈ filesOfAll cs, StaysInside w

theorem inside_iff (cs : List (Str × PN)) :
    Inside cs ↔ ∀ kn ∈ cs, (kn.1 = b!"file" → StaysInside kn.2.value) ∧ Inside kn.2.children := by
  unfold Inside
  induction cs with
  | nil => simp [filesOfAll]
  | cons kn cs ih =>
    obtain ⟨k, a, v, xs⟩ := kn
    simp only [filesOfAll, filesOf, List.mem_append, List.mem_cons, forall_eq_or_imp]
    rw [← ih]
    change _ ↔ (((k = b!"file" → StaysInside v) ∧ ∀ w ∈ filesOfAll xs, StaysInside w) ∧ _)
    change (∀ w, ((w ∈ if k = b!"file" then [v] else []) ∨ _) ∨ _ → _) ↔ _
    constructor
    · intro h
      exact ⟨⟨fun hk => h v (Or.inl (Or.inl (by simp [hk]))), fun w hw => h w (Or.inl (Or.inr hw))⟩, fun w hw => h w (Or.inr hw)⟩
    · rintro ⟨⟨h1, h2⟩, h3⟩ w ((hw | hw) | hw)
      · split at hw
        · rename_i hk
          rw [List.mem_singleton.1 hw]
          exact h1 hk
        · cases hw
      · exact h2 w hw
      · exact h3 w hw

theorem Inside.subset {cs ds : List (Str × PN)} (h : Inside cs) (hs : ∀ kn ∈ ds, kn ∈ cs) : Inside ds :=
  (inside_iff ds).2 fun kn hkn => (inside_iff cs).1 h kn (hs kn hkn)

theorem Inside.append {cs ds : List (Str × PN)} (h1 : Inside cs) (h2 : Inside ds) : Inside (cs ++ ds) :=
  (inside_iff _).2 fun kn hkn => (List.mem_append.1 hkn).elim ((inside_iff cs).1 h1 kn) ((inside_iff ds).1 h2 kn)

mutual
theorem filesOf_clear : (n : PN) → filesOf n.clear = filesOf n
  | .mk _ _ cs => by simp only [clear, filesOf]; exact filesOf_clearAll cs
theorem filesOf_clearAll : (cs : List (Str × PN)) → filesOfAll (clearAll cs) = filesOfAll cs
  | [] => rfl
  | (k, .mk a v xs) :: r => by
    have h1 := filesOf_clear (.mk a v xs)
    have h2 := filesOf_clearAll r
    simp only [clearAll, filesOfAll, h1, h2]
    rfl
end

theorem Inside.clearAll {cs : List (Str × PN)} (h : Inside cs) : Inside (PN.clearAll cs) := by
  unfold Inside
  rw [filesOf_clearAll]
  exact h

theorem Inside.clear {n : PN} (h : Inside n.children) : Inside n.clear.children := by
  cases n with
  | mk a v cs => exact Inside.clearAll h

theorem Inside.one {k : Str} {n : PN} (h1 : k = b!"file" → StaysInside n.value) (h2 : Inside n.children) : Inside [(k, n)] :=
  (inside_iff _).2 fun kn hkn => by rw [List.mem_singleton.1 hkn]; exact ⟨h1, h2⟩

theorem Inside.merge {cs : List (Str × PN)} (ds : List (Str × PN)) (h1 : Inside cs) (h2 : Inside ds) :
    Inside (mergeLoop false cs ds) := by
  induction ds generalizing cs with
  | nil => exact h1
  | cons kn ds ih =>
    obtain ⟨k, n⟩ := kn
    have hk := (inside_iff _).1 h2 (k, n) (List.mem_cons_self ..)
    have h2' : Inside ds := h2.subset fun kn h => List.mem_cons_of_mem _ h
    simp only [mergeLoop]
    cases findIdx k cs with
    | none =>
      refine ih (h1.append (.one ?_ (Inside.clear hk.2))) h2'
      cases n
      exact hk.1
    | some i => simpa using ih h1 h2'

theorem findIdx_key {key : Str} : ∀ {cs : List (Str × PN)} {i : Nat}, findIdx key cs = some i → ∀ kn, cs[i]? = some kn → kn.1 = key := by
  intro cs
  induction cs with
  | nil => intro i h; cases h
  | cons kn cs ih =>
    obtain ⟨k, n⟩ := kn
    intro i h m hm
    simp only [findIdx] at h
    split at h
    · rename_i hk
      injection h with h
      subst h
      simp only [List.getElem?_cons_zero, Option.some.injEq] at hm
      rw [← hm]
      exact hk
    · cases hf : findIdx key cs with
      | none => rw [hf] at h; cases h
      | some j =>
        rw [hf] at h
        simp only [Option.map_some, Option.some.injEq] at h
        subst h
        exact ih hf m (by simpa using hm)

theorem Inside.file {n : PN} (h : Inside n.children) {name : Str × PN}
    (hg : getKeyed (fun c => .ok c.value) b!"file" n = .ok name) : StaysInside name.1 := by
  cases n with
  | mk a v cs =>
    simp only [getKeyed] at hg
    cases hi : findIdx b!"file" cs with
    | none => rw [hi] at hg; cases hg
    | some i =>
      rw [hi] at hg
      dsimp only at hg
      cases hc : cs[i]? with
      | none => rw [hc] at hg; cases hg
      | some kn =>
        rw [hc] at hg
        simp only [Res.bind_ok] at hg
        injection hg with hg
        subst hg
        have := ((inside_iff cs).1 h kn (List.mem_of_getElem? hc)).1 (findIdx_key hi kn hc)
        obtain ⟨k, b, w, ds⟩ := kn
        exact this

/-! ## Include resolution below two folders -/

/-- Two loads that agree below two folders, and give trees whose files stay inside. -/
def AgreeBelow (p q : Str) (f g : Str → Res PN) : Prop :=
  ∀ x, StaysInside x → f (p ++ 47 :: x) = g (q ++ 47 :: x) ∧ ∀ n, f (p ++ 47 :: x) = .ok n → Inside n.children

theorem resolveKids_below {p q : Str} (hp : Plain p) (hq : Plain q) {e1 e2 : IncludeEnv} (hb : e1.asBool = e2.asBool)
    (hd : e1.directive = e2.directive) {c1 c2 : Str → Res PN} (hc : AgreeBelow p q c1 c2) {x : Str} (hx : StaysInside x)
    (fuel : Nat) : ∀ (i : Nat) (cs : List (Str × PN)), Inside cs →
    resolveKids e1 c1 (p ++ 47 :: x) fuel i cs = resolveKids e2 c2 (q ++ 47 :: x) fuel i cs ∧
    ∀ ds, resolveKids e1 c1 (p ++ 47 :: x) fuel i cs = .ok ds → Inside ds := by
  induction fuel with
  | zero => intro i cs _; exact ⟨rfl, fun ds h => by cases h⟩
  | succ fuel ih =>
    intro i cs hcs
    simp only [resolveKids]
    cases hi : cs[i]? with
    | none => exact ⟨rfl, fun ds h => by injection h with h; exact h ▸ hcs⟩
    | some kn =>
      obtain ⟨k, n⟩ := kn
      have hn := (inside_iff cs).1 hcs (k, n) (List.mem_of_getElem? hi)
      dsimp only
      rw [hd, hb]
      by_cases hk : k = e2.directive
      · simp only [if_pos hk]
        cases hg : getKeyed (fun c => .ok c.value) b!"file" n with
        | ok name =>
          obtain ⟨y, hy, hj⟩ := include_name x name.1 hx (Inside.file hn.2 hg)
          obtain ⟨d1, a1, b1⟩ := hj p hp
          obtain ⟨d2, a2, b2⟩ := hj q hq
          rw [a1, a2]
          simp only [Res.bind_ok]
          cases getDef (fun c => .ok (e2.asBool c.value)) b!"merge_children" false n with
          | ok m =>
            simp only [Res.bind_ok]
            rw [b1, b2, ← (hc y hy).1]
            cases hr : c1 (p ++ 47 :: y) with
            | ok props =>
              have hin := (hc y hy).2 props hr
              simp only [Res.bind_ok]
              have he : Inside (cs.eraseIdx i) := hcs.subset fun kn h => List.mem_of_mem_eraseIdx h
              match hpc : props.children with
              | [] => exact ⟨rfl, fun ds h => by cases h⟩
              | _ :: _ :: _ => exact ⟨rfl, fun ds h => by cases h⟩
              | [(k', root)] =>
                rw [hpc] at hin
                have hroot := (inside_iff _).1 hin (k', root) (List.mem_cons_self ..)
                dsimp only
                split
                · exact ih 0 _ (he.merge _ hroot.2)
                · refine ih i _ (((he.subset fun kn h => List.mem_of_mem_take h).append (Inside.clearAll hin)).append
                    (he.subset fun kn h => List.mem_of_mem_drop h))
            | throws e => exact ⟨rfl, fun ds h => by cases h⟩
            | ub => exact ⟨rfl, fun ds h => by cases h⟩
            | diverges => exact ⟨rfl, fun ds h => by cases h⟩
          | throws e => exact ⟨rfl, fun ds h => by cases h⟩
          | ub => exact ⟨rfl, fun ds h => by cases h⟩
          | diverges => exact ⟨rfl, fun ds h => by cases h⟩
        | throws e =>
          obtain ⟨y, _, hj⟩ := include_name x [] hx ⟨by simp, by simp⟩
          obtain ⟨d1, a1, _⟩ := hj p hp
          obtain ⟨d2, a2, _⟩ := hj q hq
          rw [a1, a2]
          exact ⟨rfl, fun ds h => by cases h⟩
        | ub =>
          obtain ⟨y, _, hj⟩ := include_name x [] hx ⟨by simp, by simp⟩
          obtain ⟨d1, a1, _⟩ := hj p hp
          obtain ⟨d2, a2, _⟩ := hj q hq
          rw [a1, a2]
          exact ⟨rfl, fun ds h => by cases h⟩
        | diverges =>
          obtain ⟨y, _, hj⟩ := include_name x [] hx ⟨by simp, by simp⟩
          obtain ⟨d1, a1, _⟩ := hj p hp
          obtain ⟨d2, a2, _⟩ := hj q hq
          rw [a1, a2]
          exact ⟨rfl, fun ds h => by cases h⟩
      · simp only [if_neg hk]
        obtain ⟨r1, r2⟩ := ih 0 n.children hn.2
        rw [← r1]
        cases hr : resolveKids e1 c1 (p ++ 47 :: x) fuel 0 n.children with
        | ok ds =>
          simp only [Res.bind_ok]
          refine ih (i + 1) _ ((inside_iff _).2 ?_)
          intro kn hkn
          rcases List.mem_or_eq_of_mem_set hkn with h | rfl
          · exact (inside_iff cs).1 hcs kn h
          · exact ⟨hn.1, r2 ds hr⟩
        | throws e => exact ⟨rfl, fun ds h => by cases h⟩
        | ub => exact ⟨rfl, fun ds h => by cases h⟩
        | diverges => exact ⟨rfl, fun ds h => by cases h⟩

theorem loadWithInclude_below {p q : Str} (hp : Plain p) (hq : Plain q) {e1 e2 : IncludeEnv} (hb : e1.asBool = e2.asBool)
    (hd : e1.directive = e2.directive) (hl : AgreeBelow p q e1.load e2.load) (fuel remaining : Nat) :
    AgreeBelow p q (loadWithInclude e1 fuel remaining) (loadWithInclude e2 fuel remaining) := by
  induction remaining with
  | zero => intro x _; exact ⟨rfl, fun n h => by cases h⟩
  | succ remaining ih =>
    intro x hx
    simp only [loadWithInclude]
    rw [← (hl x hx).1]
    cases hr : e1.load (p ++ 47 :: x) with
    | ok n =>
      simp only [Res.bind_ok]
      obtain ⟨r1, r2⟩ := resolveKids_below hp hq hb hd ih hx fuel 0 n.children ((hl x hx).2 n hr)
      rw [← r1]
      cases hk : resolveKids e1 (loadWithInclude e1 fuel remaining) (p ++ 47 :: x) fuel 0 n.children with
      | ok ds =>
        refine ⟨rfl, fun m h => ?_⟩
        simp only [Res.bind_ok] at h
        injection h with h
        subst h
        exact Inside.clear (r2 ds hk)
      | throws e => exact ⟨rfl, fun ds h => by cases h⟩
      | ub => exact ⟨rfl, fun ds h => by cases h⟩
      | diverges => exact ⟨rfl, fun ds h => by cases h⟩
    | throws e => exact ⟨rfl, fun ds h => by cases h⟩
    | ub => exact ⟨rfl, fun ds h => by cases h⟩
    | diverges => exact ⟨rfl, fun ds h => by cases h⟩

end PN

/-! ## Files below two folders -/

namespace Fs

/-- Walking inside two folders that hold the same. -/
theorem walk_below {a b : Fs} {l m : Loc} (h : SameFolder a l b m) {ns : List Str} (hn : ∀ w ∈ ns, w ≠ b!"..") :
    ∀ r : Loc, ∃ t : Option Loc, a.walk (l ++ r) ns = t.map (l ++ ·) ∧ b.walk (m ++ r) ns = t.map (m ++ ·) := by
  induction ns with
  | nil => intro r; exact ⟨some r, rfl, rfl⟩
  | cons n ns ih =>
    intro r
    have hn' := fun w hw => hn w (List.mem_cons_of_mem _ hw)
    simp only [walk, step, (h r).1, if_neg (hn n (List.mem_cons_self ..))]
    split
    · split
      · exact ih hn' r
      · obtain ⟨t, h1, h2⟩ := ih hn' (r ++ [n])
        refine ⟨t, ?_, ?_⟩
        · rw [← List.append_assoc] at h1; exact h1
        · rw [← List.append_assoc] at h2; exact h2
    · exact ⟨none, rfl, rfl⟩

theorem stays_names {x : Str} (hx : StaysInside x) : ∀ w ∈ names x, w ≠ b!".." := by
  have key : ∀ s : Str, ∀ w ∈ splitSlash s, ∃ u v, s = u ++ w ++ v := by
    intro s
    induction s with
    | nil => intro w hw; exact ⟨[], [], by simpa [splitSlash] using hw⟩
    | cons c s ih =>
      cases h : splitSlash s with
      | nil => exact absurd h (splitSlash_ne_nil s)
      | cons y ys =>
        have pre : ∃ v, s = y ++ v := by
          have : ∀ s : Str, ∀ y ys, splitSlash s = y :: ys → ∃ v, s = y ++ v := by
            intro s
            induction s with
            | nil => intro y ys h; simp [splitSlash] at h; exact ⟨[], by simp [h.1]⟩
            | cons d s ih =>
              intro y ys h
              cases h' : splitSlash s with
              | nil => exact absurd h' (splitSlash_ne_nil s)
              | cons z zs =>
                obtain ⟨v, hv⟩ := ih z zs h'
                simp only [splitSlash, h'] at h
                split at h
                · injection h with h1 h2
                  exact ⟨d :: s, by simp [← h1]⟩
                · injection h with h1 h2
                  exact ⟨v, by rw [← h1, List.cons_append, ← hv]⟩
          exact this s y ys h
        simp only [splitSlash, h]
        rw [h] at ih
        intro w hw
        split at hw
        · rcases List.mem_cons.1 hw with rfl | hw
          · exact ⟨[], c :: s, rfl⟩
          · obtain ⟨u, v, e⟩ := ih w hw
            exact ⟨c :: u, v, by rw [e]; rfl⟩
        · rcases List.mem_cons.1 hw with rfl | hw
          · obtain ⟨v, e⟩ := pre
            exact ⟨[], v, by rw [e]; rfl⟩
          · obtain ⟨u, v, e⟩ := ih w (List.mem_cons_of_mem _ hw)
            exact ⟨c :: u, v, by rw [e]; rfl⟩
  intro w hw he
  simp only [names, List.mem_filter] at hw
  obtain ⟨u, v, e⟩ := key x w hw.1
  subst he
  refine hx.2 u.length ⟨?_, ?_⟩
  · rw [e, List.append_assoc, List.getElem?_append_right (Nat.le_refl _), Nat.sub_self]; rfl
  · rw [e, List.append_assoc, List.getElem?_append_right (by omega), show u.length + 1 - u.length = 1 by omega]; rfl

/-- A folder that a name stands for. -/
def IsFolder (fs : Fs) (p : Str) (l : Loc) : Prop := fs.locate p = some l ∧ fs.node l = some .folder

theorem locate_below {fs : Fs} {p x : Str} {l : Loc} (hp : Plain p) (h : IsFolder fs p l) :
    fs.locate (p ++ 47 :: x) = fs.walk l (names x) := by
  have hne : p ≠ [] := by
    obtain ⟨_, a, c, rfl, _⟩ := hp
    simp
  rw [locate_eq (by simp), names_append, walk_append]
  have h1 := h.1
  rw [locate_eq hne] at h1
  have hh : (p ++ 47 :: x).head? = p.head? := by
    cases p with
    | nil => exact absurd rfl hne
    | cons c p => rfl
  rw [hh, h1]
  rfl

theorem below_nul {p x : Str} (hp : Plain p) (hx : StaysInside x) : ∀ c ∈ p ++ 47 :: x, c ≠ 0 := by
  intro c hc
  rcases List.mem_append.1 hc with hc | hc
  · exact hp.1 c hc
  · rcases List.mem_cons.1 hc with rfl | hc
    · decide
    · exact hx.1 c hc

theorem last_below (p q x : Str) : (p ++ 47 :: x).getLast? = (q ++ 47 :: x).getLast? := by
  rcases List.eq_nil_or_concat x with rfl | ⟨y, c, rfl⟩
  · simp
  · rw [List.concat_eq_append, show p ++ 47 :: (y ++ [c]) = (p ++ 47 :: y) ++ [c] by simp,
      show q ++ 47 :: (y ++ [c]) = (q ++ 47 :: y) ++ [c] by simp, List.getLast?_concat, List.getLast?_concat]

/-- Files below two folders that hold the same load alike. -/
theorem loadFile_below {a b : Fs} {p q x : Str} {l m : Loc} (hp : Plain p) (hq : Plain q) (ha : IsFolder a p l)
    (hb : IsFolder b q m) (h : SameFolder a l b m) (hx : StaysInside x) :
    a.loadFile (p ++ 47 :: x) = b.loadFile (q ++ 47 :: x) := by
  have hs : a.loadString (p ++ 47 :: x) none = b.loadString (q ++ 47 :: x) none := by
    obtain ⟨t, h1, h2⟩ := walk_below h (stays_names hx) []
    rw [List.append_nil] at h1 h2
    unfold loadString openRead stat
    rw [cstr_id (below_nul hp hx), cstr_id (below_nul hq hx), locate_below hp ha, locate_below hq hb, h1, h2, last_below p q x]
    cases t with
    | none => rfl
    | some r =>
      simp only [Option.map_some, (h r).1, (h r).2, readAll]
      by_cases hc : (if (q ++ 47 :: x).getLast? = some 47 ∧ b.node (m ++ r) ≠ some .folder then none else b.node (m ++ r)).isSome = true ∧
          b.readable (m ++ r) = true
      · simp only [if_pos hc, (h r).1]
      · simp only [if_neg hc]
  have he : ∀ p, ∃ e, extension (p ++ 47 :: x) = .ok e ∧ (e = b!"xml" ↔ ∃ u, x = u ++ b!".xml") := by
    have ext : ∀ a b : Str, (∀ d ∈ b, d ≠ 46) → extension (a ++ 46 :: b) = .ok b := by
      intro a b hb
      have hdot : findLast (· == 46) (a ++ 46 :: b) = some a.length :=
        findLast_append_cons (by simp) fun d hd => by simpa using hb d hd
      simp only [extension, hdot]
      have := substr_append (pre := a ++ [46]) (post := b)
      simpa using this
    intro p
    rcases exists_lastDot x with hd | ⟨u, v, rfl, hv⟩
    · have hno : ¬ ∃ u, x = u ++ b!".xml" := by
        rintro ⟨u, rfl⟩
        exact hd 46 (by simp) rfl
      rcases exists_lastDot p with hd' | ⟨u, v, rfl, hv⟩
      · refine ⟨[], ?_, by simp [hno]⟩
        unfold extension
        rw [findLast_eq_none.2]
        intro d hd2
        rcases List.mem_append.1 hd2 with h | h
        · simpa using hd' d h
        · rcases List.mem_cons.1 h with rfl | h
          · rfl
          · simpa using hd d h
      · refine ⟨v ++ 47 :: x, ?_, ?_⟩
        · rw [List.append_assoc]
          refine ext u _ ?_
          intro d hd2
          rcases List.mem_append.1 hd2 with h | h
          · exact hv d h
          · rcases List.mem_cons.1 h with rfl | h
            · decide
            · exact hd d h
        · simp only [hno, iff_false]
          intro h
          have : (47 : Byte) ∈ b!"xml" := by rw [← h]; simp
          revert this
          decide
    · refine ⟨v, ?_, ?_⟩
      · have := ext (p ++ 47 :: u) v hv
        simpa using this
      · constructor
        · rintro rfl
          exact ⟨u, rfl⟩
        · rintro ⟨u', h⟩
          have h1 := ext u v hv
          have h2 := ext u' b!"xml" (by decide)
          rw [h] at h1
          have h3 : Res.ok b!"xml" = Res.ok v := h2.symm.trans h1
          injection h3 with h3
          exact h3.symm
  obtain ⟨e1, f1, g1⟩ := he p
  obtain ⟨e2, f2, g2⟩ := he q
  have hx1 : (a.loadXml (p ++ 47 :: x) none).1 = (b.loadXml (q ++ 47 :: x) none).1 := by unfold loadXml; rw [hs]
  have hx2 : (a.loadProp (p ++ 47 :: x) none).1 = (b.loadProp (q ++ 47 :: x) none).1 := by unfold loadProp; rw [hs]
  unfold loadFile
  rw [f1, f2, Res.bind_ok, Res.bind_ok, hx1, hx2]
  by_cases h0 : ∃ u, x = u ++ b!".xml"
  · rw [if_pos (g1.2 h0), if_pos (g2.2 h0)]
  · rw [if_neg (fun h => h0 (g1.1 h)), if_neg (fun h => h0 (g2.1 h))]

/-- Every file in a folder, read in either format, names only files that stay inside. -/
def NamesInside (fs : Fs) (l : Loc) : Prop :=
  ∀ r text n, fs.node (l ++ r) = some (.file text) → (parseProp text = .ok n ∨ parseXml text = .ok n) → ∀ w ∈ PN.filesOf n, StaysInside w

theorem loadFile_inside {a : Fs} {p x : Str} {l : Loc} (hp : Plain p) (ha : IsFolder a p l) (hx : StaysInside x)
    (h : NamesInside a l) {n : PN} (hn : a.loadFile (p ++ 47 :: x) = .ok n) : PN.Inside n.children := by
  have key : ∃ text, a.loadString (p ++ 47 :: x) none = (.ok text, none) ∧ (parseProp text = .ok n ∨ parseXml text = .ok n) := by
    unfold loadFile at hn
    obtain ⟨e, _, hn⟩ := Res.bind_eq_ok.1 hn
    have hs : a.loadString (p ++ 47 :: x) none = (.throws .flutError, none) ∨ ∃ text, a.loadString (p ++ 47 :: x) none = (.ok text, none) := by
      unfold loadString
      cases a.openRead (p ++ 47 :: x) with
      | none => exact Or.inl rfl
      | some l => exact Or.inr ⟨_, rfl⟩
    rcases hs with hs | ⟨text, hs⟩
    · split at hn
      · unfold loadXml at hn
        rw [hs] at hn
        cases hn
      · unfold loadProp at hn
        rw [hs] at hn
        cases hn
    · refine ⟨text, hs, ?_⟩
      split at hn
      · unfold loadXml at hn
        rw [hs] at hn
        simp only [Option.any_none, Bool.false_eq_true, if_false] at hn
        right
        revert hn
        cases parseXml text <;> exact id
      · unfold loadProp at hn
        rw [hs] at hn
        left
        simpa using hn
  obtain ⟨text, hs, hp'⟩ := key
  have htext : text = [] ∨ ∃ r, a.node (l ++ r) = some (.file text) := by
    obtain ⟨t, h1, _⟩ := walk_below (a := a) (b := a) (l := l) (m := l) (fun r => ⟨rfl, rfl⟩) (stays_names hx) []
    rw [List.append_nil] at h1
    unfold loadString at hs
    cases ho : a.openRead (p ++ 47 :: x) with
    | none => rw [ho] at hs; cases hs
    | some k =>
      rw [ho] at hs
      simp only [Prod.mk.injEq, Res.ok.injEq, and_true] at hs
      unfold openRead at ho
      rw [cstr_id (below_nul hp hx), locate_below hp ha, h1] at ho
      cases t with
      | none => cases ho
      | some r =>
        simp only [Option.map_some] at ho
        split at ho
        · injection ho with ho
          subst ho
          unfold readAll at hs
          split at hs
          · rename_i content hc
            subst hs
            exact Or.inr ⟨r, hc⟩
          · exact Or.inl hs.symm
        · cases ho
  have hall : ∀ w ∈ PN.filesOf n, StaysInside w := by
    rcases htext with rfl | ⟨r, hr⟩
    · have h0 : parseProp ([] : Str) = .ok PN.nil := rfl
      have h1 : ∀ m, parseXml ([] : Str) = .ok m → PN.filesOf m = [] := by
        intro m hm
        have : parseXml ([] : Str) = .ok PN.nil := rfl
        rw [this] at hm
        injection hm with hm
        subst hm
        rfl
      rcases hp' with hp' | hp'
      · rw [h0] at hp'
        injection hp' with hp'
        subst hp'
        intro w hw
        cases hw
      · rw [h1 n hp']
        intro w hw
        cases hw
    · exact h r text n hr hp'
  cases n
  exact hall

/-- A folder whose files include one another by names that stay in it can be copied, moved or renamed: loading a file in it with
its includes gives the same tree or the same exception, whatever the folder is called and wherever it is. -/
theorem C145_move (a b : Fs) (p q x : Str) (l m : Loc) (hp : Plain p) (hq : Plain q) (ha : IsFolder a p l) (hb : IsFolder b q m)
    (h : SameFolder a l b m) (hin : NamesInside a l) (hx : StaysInside x) (asBool : Str → Bool) (directive : Str)
    (fuel levels : Nat) :
    PN.loadWithInclude ⟨a.loadFile, asBool, directive⟩ fuel levels (join p x) =
    PN.loadWithInclude ⟨b.loadFile, asBool, directive⟩ fuel levels (join q x) := by
  have hj : ∀ p : Str, Plain p → join p x = p ++ 47 :: x := by
    intro p hp
    unfold join
    rw [if_pos ((hasFilename_iff p).2 hp.2), List.append_assoc]
    rfl
  rw [hj p hp, hj q hq]
  exact (PN.loadWithInclude_below hp hq (e1 := ⟨a.loadFile, asBool, directive⟩) (e2 := ⟨b.loadFile, asBool, directive⟩) rfl rfl
    (fun y hy => ⟨loadFile_below hp hq ha hb h hy, fun n hn => loadFile_inside hp ha hy hin hn⟩) fuel levels x hx).1

/-- Two files, one of which includes the other, in a folder and in its copy elsewhere. -/
def moveExample (l : Loc) : Fs where
  node := fun r => if r = l ++ [b!"f.prop"] then some (.file b!"a = 1\ninclude {\n\tfile = s/g.prop\n}\n")
    else if r = l ++ [b!"s", b!"g.prop"] then some (.file b!"b = 2\n")
    else if r = l ++ [b!"s"] ∨ r <+: l then some .folder else none
  cwd := []
  readable := fun _ => true
  writable := fun _ => true

theorem moveExample_node (l r : Loc) : (moveExample l).node (l ++ r) =
    if r = [b!"f.prop"] then some (.file b!"a = 1\ninclude {\n\tfile = s/g.prop\n}\n")
    else if r = [b!"s", b!"g.prop"] then some (.file b!"b = 2\n") else if r = [b!"s"] ∨ r = [] then some .folder else none := by
  have h : l ++ r <+: l ↔ r = [] := by
    constructor
    · intro h
      have := h.length_le
      rw [List.length_append] at this
      exact List.eq_nil_of_length_eq_zero (by omega)
    · rintro rfl
      rw [List.append_nil]
      exact List.prefix_refl l
  unfold moveExample
  simp only [List.append_right_inj, h]

theorem staysInside_of {x : Str} (h0 : ∀ c ∈ x, c ≠ 0) (h : ∀ i < x.length, ¬ (x[i]? = some 46 ∧ x[i + 1]? = some 46)) :
    StaysInside x := by
  refine ⟨h0, fun i hi => ?_⟩
  have : i < x.length := by
    rcases Nat.lt_or_ge i x.length with h1 | h1
    · exact h1
    · rw [List.getElem?_eq_none h1] at hi
      cases hi.1
  exact h i this hi

example : Plain b!"d" ∧ Plain b!"/e/k" ∧ IsFolder (moveExample [b!"d"]) b!"d" [b!"d"] ∧
    IsFolder (moveExample [b!"e", b!"k"]) b!"/e/k" [b!"e", b!"k"] ∧ StaysInside b!"f.prop" ∧
    SameFolder (moveExample [b!"d"]) [b!"d"] (moveExample [b!"e", b!"k"]) [b!"e", b!"k"] ∧
    NamesInside (moveExample [b!"d"]) [b!"d"] ∧
    ∃ r, PN.loadWithInclude ⟨(moveExample [b!"d"]).loadFile, fun _ => false, b!"include"⟩ 10 100 b!"d/f.prop" = .ok r ∧
      r.children.map Prod.fst = [b!"a", b!"b"] := by
  refine ⟨⟨by decide, [], _, rfl, by decide⟩, ⟨by decide, b!"/e/", _, rfl, by decide⟩, ⟨by decide +kernel, by decide +kernel⟩,
    ⟨by decide +kernel, by decide +kernel⟩, staysInside_of (by decide) (by decide), ?_, ?_, ⟨_, rfl, rfl⟩⟩
  · intro r
    rw [moveExample_node, moveExample_node]
    exact ⟨rfl, rfl⟩
  · intro r text n h hn w hw
    rw [moveExample_node] at h
    split at h
    · injection h with h
      injection h with h
      subst h
      rcases hn with hn | hn
      · have h1 : ∃ t, parseProp b!"a = 1\ninclude {\n\tfile = s/g.prop\n}\n" = .ok t ∧ t.filesOf = [b!"s/g.prop"] := ⟨_, rfl, rfl⟩
        obtain ⟨t, ht, h1⟩ := h1
        rw [ht] at hn
        injection hn with hn
        subst hn
        rw [h1, List.mem_singleton] at hw
        subst hw
        exact staysInside_of (by decide) (by decide)
      · have h1 : ∃ e, parseXml b!"a = 1\ninclude {\n\tfile = s/g.prop\n}\n" = .throws e := ⟨_, rfl⟩
        obtain ⟨e, h1⟩ := h1
        rw [h1] at hn
        cases hn
    · split at h
      · injection h with h
        injection h with h
        subst h
        rcases hn with hn | hn
        · have h1 : ∃ t, parseProp b!"b = 2\n" = .ok t ∧ t.filesOf = [] := ⟨_, rfl, rfl⟩
          obtain ⟨t, ht, h1⟩ := h1
          rw [ht] at hn
          injection hn with hn
          subst hn
          rw [h1] at hw
          cases hw
        · have h1 : ∃ e, parseXml b!"b = 2\n" = .throws e := ⟨_, rfl⟩
          obtain ⟨e, h1⟩ := h1
          rw [h1] at hn
          cases hn
      · split at h <;> cases h

/-- A folder with a file that includes one from the folder above, which holds it only where the folder was. -/
def aboveExample (l : Loc) : Fs where
  node := fun r => if r = l ++ [b!"f.prop"] then some (.file b!"include {\n\tfile = ../g.prop\n}\n")
    else if r = [b!"g.prop"] then some (.file b!"b = 2\n")
    else if r <+: l then some .folder else none
  cwd := []
  readable := fun _ => true
  writable := fun _ => true

/-- A file that includes another from the folder above does not load any more when its folder is moved. -/
theorem C145_above_refuted : ∃ a b : Fs, ∃ l m, IsFolder a b!"/d" l ∧ IsFolder b b!"/e/k" m ∧ SameFolder a l b m ∧
    (∃ r, PN.loadWithInclude ⟨a.loadFile, fun _ => false, b!"include"⟩ 10 100 b!"/d/f.prop" = .ok r ∧
      r.children.map Prod.fst = [b!"b"]) ∧
    PN.loadWithInclude ⟨b.loadFile, fun _ => false, b!"include"⟩ 10 100 b!"/e/k/f.prop" = .throws .flutError := by
  refine ⟨aboveExample [b!"d"], aboveExample [b!"e", b!"k"], [b!"d"], [b!"e", b!"k"], ⟨by decide +kernel, by decide +kernel⟩,
    ⟨by decide +kernel, by decide +kernel⟩, fun r => ⟨?_, rfl⟩, ⟨_, rfl, rfl⟩, rfl⟩
  have key : ∀ l : Loc, l ≠ [] → l.head? ≠ some b!"g.prop" → (aboveExample l).node (l ++ r) =
      if r = [b!"f.prop"] then some (.file b!"include {\n\tfile = ../g.prop\n}\n") else if r = [] then some .folder else none := by
    intro l hl hg
    have h : l ++ r <+: l ↔ r = [] := by
      constructor
      · intro h
        have := h.length_le
        rw [List.length_append] at this
        exact List.eq_nil_of_length_eq_zero (by omega)
      · rintro rfl
        rw [List.append_nil]
        exact List.prefix_refl l
    have h2 : l ++ r ≠ [b!"g.prop"] := by
      intro h
      cases l with
      | nil => exact hl rfl
      | cons a l =>
        simp only [List.cons_append, List.cons.injEq] at h
        exact hg (by rw [h.1]; rfl)
    unfold aboveExample
    simp only [List.append_right_inj, h, if_neg h2]
  rw [key _ (by decide) (by decide), key _ (by decide) (by decide)]

end Fs

end Flut
