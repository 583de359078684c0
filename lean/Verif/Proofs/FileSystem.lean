import Verif.Spec.FileSystem
import Verif.Props.Path
import Verif.Proofs.Text
import Mathlib.Data.List.Induction

/-! # Lemmas on file systems -/

namespace Flut

namespace Fs

theorem AddsFolders.refl (fs : Fs) : AddsFolders fs fs := ⟨rfl, rfl, rfl, fun _ => .inl rfl⟩

theorem AddsFolders.trans {a b c : Fs} (h1 : AddsFolders a b) (h2 : AddsFolders b c) : AddsFolders a c := by
  refine ⟨h2.cwd.trans h1.cwd, h2.readable.trans h1.readable, h2.writable.trans h1.writable, fun l => ?_⟩
  rcases h1.node l with e1 | ⟨e1, e1'⟩ <;> rcases h2.node l with e2 | ⟨e2, e2'⟩
  · exact .inl (e2.trans e1)
  · exact .inr ⟨e1 ▸ e2, e2'⟩
  · exact .inr ⟨e1, e2.trans e1'⟩
  · exact .inr ⟨e1, e2'⟩

theorem AddsFolders.keeps {a b : Fs} (h : AddsFolders a b) {l : Loc} {n : FsNode} (hn : a.node l = some n) : b.node l = some n := by
  rcases h.node l with e | ⟨e, _⟩
  · rw [e, hn]
  · rw [hn] at e; cases e

theorem walk_mono {a b : Fs} (h : AddsFolders a b) {ns : List Str} : ∀ {l r : Loc}, a.walk l ns = some r → b.walk l ns = some r := by
  induction ns with
  | nil => intro l r hw; exact hw
  | cons n ns ih =>
    intro l r hw
    unfold walk at hw ⊢
    unfold step at hw ⊢
    by_cases hf : a.node l = some .folder
    · rw [if_pos hf] at hw
      rw [if_pos (h.keeps hf)]
      split at hw
      · rename_i h1; rw [if_pos h1]; exact ih hw
      · rename_i h1; rw [if_neg h1]
        split at hw
        · rename_i h2; rw [if_pos h2]; exact ih hw
        · rename_i h2; rw [if_neg h2]; exact ih hw
    · rw [if_neg hf] at hw; cases hw

theorem locate_mono {a b : Fs} (h : AddsFolders a b) {p : Str} {r : Loc} (hl : a.locate p = some r) : b.locate p = some r := by
  unfold locate at hl ⊢
  by_cases hp : p = []
  · rw [if_pos hp] at hl; cases hl
  · rw [if_neg hp] at hl ⊢
    rw [h.cwd]
    exact walk_mono h hl

theorem put_addsFolders {fs : Fs} {l : Loc} (h : fs.node l = none) : AddsFolders fs (fs.put l .folder) := by
  refine ⟨rfl, rfl, rfl, fun m => ?_⟩
  by_cases e : m = l
  · subst e; exact .inr ⟨h, by simp [put]⟩
  · exact .inl (by simp [put, e])

theorem mkdir_addsFolders (fs : Fs) (p : Str) : AddsFolders fs (fs.mkdir p).2 := by
  unfold mkdir
  cases fs.locate (cstr p) with
  | none => exact .refl _
  | some l =>
    dsimp only
    split
    · rename_i h; exact put_addsFolders h.1
    · exact .refl _

theorem mkdir_true {fs : Fs} {p : Str} (h : (fs.mkdir p).1 = true) :
    fs.stat p = none ∧ (fs.mkdir p).2.stat p = some .folder := by
  have ha := mkdir_addsFolders fs p
  unfold mkdir at h ha ⊢
  cases hl : fs.locate (cstr p) with
  | none => rw [hl] at h; cases h
  | some l =>
    rw [hl] at h ha
    dsimp only at h ha ⊢
    split at h
    · rename_i hc
      rw [if_pos hc] at ha ⊢
      have hl' := locate_mono ha hl
      unfold stat
      rw [hl, hl']
      dsimp only
      refine ⟨?_, ?_⟩
      · split
        · rfl
        · exact hc.1
      · rw [if_neg]
        · simp [put]
        · simp [put]
    · cases h

theorem createDirsN_addsFolders (n : Nat) (fs : Fs) (p : Str) : AddsFolders fs (createDirsN n fs p).2 := by
  induction n generalizing fs p with
  | zero => exact .refl _
  | succ n ih =>
    unfold createDirsN
    refine AddsFolders.trans ?_ (mkdir_addsFolders _ _)
    split
    · split
      · split
        · exact .refl _
        · exact ih _ _
      · exact .refl _
    · exact .refl _

theorem createDirsN_true {n : Nat} {fs : Fs} {p : Str} (h : (createDirsN n fs p).1 = true) :
    fs.stat p = none ∧ (createDirsN n fs p).2.stat p = some .folder := by
  cases n with
  | zero => cases h
  | succ n =>
    unfold createDirsN at h ⊢
    dsimp only at h ⊢
    generalize hfs : (if hasParentPath p = true then
        match parentPath p with
        | .ok q => if fs.folderExists q then fs else (createDirsN n fs q).2
        | _ => fs
      else fs) = fs1 at h ⊢
    have ha : AddsFolders fs fs1 := by
      subst hfs
      split
      · split
        · split
          · exact .refl _
          · exact createDirsN_addsFolders _ _ _
        · exact .refl _
      · exact .refl _
    obtain ⟨h1, h2⟩ := mkdir_true h
    refine ⟨?_, h2⟩
    unfold stat at h1 ⊢
    cases hl : fs.locate (cstr p) with
    | none => rfl
    | some l =>
      rw [locate_mono ha hl] at h1
      dsimp only at h1 ⊢
      rcases ha.node l with e | ⟨e, e'⟩
      · rw [e] at h1; exact h1
      · simp [e]

/-! ## Plain paths -/

theorem slashed_append (ns : List Str) (x : Str) (h : ns ≠ []) : slashed (ns ++ [x]) = slashed ns ++ 47 :: x := by
  induction ns with
  | nil => exact absurd rfl h
  | cons w ws ih =>
    cases ws with
    | nil => rfl
    | cons v vs =>
      have := ih (by simp)
      simp only [List.cons_append] at this ⊢
      have e : ∀ (a b : Str) (r : List Str), slashed (a :: b :: r) = a ++ 47 :: slashed (b :: r) := fun _ _ _ => rfl
      rw [e, e, this]
      simp

theorem slashed_ne_nil {ns : List Str} (h : ns ≠ []) (hp : ∀ w ∈ ns, PlainName w) : slashed ns ≠ [] := by
  cases ns with
  | nil => exact absurd rfl h
  | cons w ws =>
    have := (hp w (by simp)).1
    cases ws with
    | nil => exact this
    | cons v vs => simp [slashed]

theorem splitSlash_word (w : Str) (h : ∀ c ∈ w, c ≠ 47) : splitSlash w = [w] := by
  induction w with
  | nil => rfl
  | cons c w ih =>
    rw [splitSlash, ih (fun c hc => h c (by simp [hc]))]
    simp [h c (by simp)]

theorem splitSlash_ne_nil (s : Str) : splitSlash s ≠ [] := by
  cases s with
  | nil => simp [splitSlash]
  | cons c s =>
    rw [splitSlash]
    split
    · simp
    · split <;> simp

theorem splitSlash_slash (w r : Str) (h : ∀ c ∈ w, c ≠ 47) : splitSlash (w ++ 47 :: r) = w :: splitSlash r := by
  induction w with
  | nil =>
    rw [List.nil_append, splitSlash]
    cases hs : splitSlash r with
    | nil => exact absurd hs (splitSlash_ne_nil r)
    | cons v vs => simp
  | cons c w ih =>
    rw [List.cons_append, splitSlash, ih (fun c hc => h c (by simp [hc]))]
    simp [h c (by simp)]

theorem names_slashed {ns : List Str} (hp : ∀ w ∈ ns, PlainName w) : (splitSlash (slashed ns)).filter (· ≠ []) = ns := by
  induction ns with
  | nil => decide
  | cons w ws ih =>
    have hw := hp w (by simp)
    have h47 : ∀ c ∈ w, c ≠ 47 := fun c hc => (hw.2.1 c hc).2.1
    have ih := ih (fun v hv => hp v (by simp [hv]))
    cases ws with
    | nil =>
      rw [slashed, splitSlash_word w h47]
      simp [hw.1]
    | cons v vs =>
      rw [slashed, splitSlash_slash w _ h47, List.filter_cons_of_pos (by simp [hw.1]), ih]
      simp

theorem slashed_mem {ns : List Str} (hp : ∀ w ∈ ns, PlainName w) : ∀ c ∈ slashed ns, c ≠ 0 ∧ c ≠ 92 := by
  induction ns with
  | nil => simp [slashed]
  | cons w ws ih =>
    have hw := (hp w (by simp)).2.1
    have ih := ih (fun v hv => hp v (by simp [hv]))
    cases ws with
    | nil => intro c hc; exact ⟨(hw c hc).1, (hw c hc).2.2⟩
    | cons v vs =>
      intro c hc
      rw [slashed] at hc
      · rcases List.mem_append.1 hc with hc | hc
        · exact ⟨(hw c hc).1, (hw c hc).2.2⟩
        · rcases List.mem_cons.1 hc with rfl | hc
          · decide
          · exact ih c hc
      · simp

theorem cstr_pathText {ns : List Str} (ab : Bool) (hp : ∀ w ∈ ns, PlainName w) : cstr (pathText ab ns) = pathText ab ns := by
  apply cstr_of_ne_zero
  intro c hc
  unfold pathText at hc
  cases ab
  · exact (slashed_mem hp c (by simpa using hc)).1
  · rcases List.mem_cons.1 (by simpa using hc) with rfl | hc
    · decide
    · exact (slashed_mem hp c hc).1

theorem slashed_head {ns : List Str} (hp : ∀ w ∈ ns, PlainName w) : (slashed ns).head? ≠ some 47 := by
  cases ns with
  | nil => simp [slashed]
  | cons w ws =>
    have hw := hp w (by simp)
    obtain ⟨c, w', rfl⟩ : ∃ c w', w = c :: w' := by
      cases w with
      | nil => exact absurd rfl hw.1
      | cons c w' => exact ⟨c, w', rfl⟩
    have := (hw.2.1 c (by simp)).2.1
    cases ws with
    | nil => simp [slashed, this]
    | cons v vs => simp [slashed, this]

theorem locate_pathText (fs : Fs) (ab : Bool) {ns : List Str} (hne : ns ≠ []) (hp : ∀ w ∈ ns, PlainName w) :
    fs.locate (pathText ab ns) = fs.walk (fs.base ab) ns := by
  unfold locate pathText base
  cases ab
  · simp only [Bool.false_eq_true, if_false]
    rw [if_neg (slashed_ne_nil hne hp), if_neg (slashed_head hp), names_slashed hp]
  · simp only [if_true, List.head?_cons]
    rw [if_neg (by simp)]
    have : splitSlash (47 :: slashed ns) = [] :: splitSlash (slashed ns) := splitSlash_slash [] _ (by simp)
    rw [this, List.filter_cons_of_neg (by simp), names_slashed hp]

theorem walk_plain {fs : Fs} {ns : List Str} (hp : ∀ w ∈ ns, PlainName w) {l : Loc}
    (hf : ∀ m, m <+: ns → m ≠ ns → fs.node (l ++ m) = some .folder) : fs.walk l ns = some (l ++ ns) := by
  induction ns generalizing l with
  | nil => simp [walk]
  | cons w ws ih =>
    have hw := hp w (by simp)
    have h0 := hf [] (by simp) (by simp)
    rw [List.append_nil] at h0
    unfold walk step
    rw [if_pos h0, if_neg hw.2.2.1, if_neg hw.2.2.2]
    simp only [Option.bind_some]
    rw [ih (fun v hv => hp v (by simp [hv]))]
    · simp
    · intro m hm hne
      have := hf (w :: m) (by simpa using hm) (by simpa using hne)
      simpa using this

theorem walk_eq_some {fs : Fs} {ns : List Str} (hp : ∀ w ∈ ns, PlainName w) {l r : Loc} (h : fs.walk l ns = some r) :
    r = l ++ ns ∧ ∀ m, m <+: ns → m ≠ ns → fs.node (l ++ m) = some .folder := by
  induction ns generalizing l with
  | nil =>
    simp only [walk, Option.some.injEq] at h
    refine ⟨by simp [h], ?_⟩
    intro m hm hne
    simp at hm
    exact absurd hm hne
  | cons w ws ih =>
    have hw := hp w (by simp)
    unfold walk step at h
    by_cases hf : fs.node l = some .folder
    · rw [if_pos hf, if_neg hw.2.2.1, if_neg hw.2.2.2] at h
      obtain ⟨h1, h2⟩ := ih (fun v hv => hp v (by simp [hv])) h
      refine ⟨by simp [h1], ?_⟩
      intro m hm hne
      cases m with
      | nil => simpa using hf
      | cons v m =>
        have hv : v = w ∧ m <+: ws := by simpa using hm
        obtain ⟨rfl, hm'⟩ := hv
        have := h2 m hm' (by simpa using hne)
        simpa using this
    · rw [if_neg hf] at h; cases h

/-- Everything lies in folders. -/
theorem WF.prefix_folder {fs : Fs} (h : WF fs) {l m : Loc} (hn : fs.node (l ++ m) ≠ none) (hm : m ≠ []) : fs.node l = some .folder := by
  induction m using List.reverseRecOn with
  | nil => exact absurd rfl hm
  | append_singleton m x ih =>
    rw [← List.append_assoc] at hn
    have := h.parent _ _ hn
    by_cases hm' : m = []
    · subst hm'; simpa using this
    · exact ih (by rw [this]; simp) hm'

theorem WF.strict_prefix {fs : Fs} (h : WF fs) {l ns m : Loc} (hn : fs.node (l ++ ns) ≠ none) (hm : m <+: ns) (hne : m ≠ ns) :
    fs.node (l ++ m) = some .folder := by
  obtain ⟨t, rfl⟩ := hm
  rw [← List.append_assoc] at hn
  exact h.prefix_folder hn (by rintro rfl; simp at hne)

theorem stat_pathText {fs : Fs} (h : WF fs) (ab : Bool) {ns : List Str} (hne : ns ≠ []) (hp : ∀ w ∈ ns, PlainName w) :
    fs.stat (pathText ab ns) = fs.node (fs.base ab ++ ns) := by
  have hlast : (pathText ab ns).getLast? ≠ some 47 := by
    obtain ⟨ms, x, rfl⟩ : ∃ ms x, ns = ms ++ [x] := ⟨ns.dropLast, ns.getLast hne, (List.dropLast_concat_getLast hne).symm⟩
    have hx := hp x (by simp)
    have hxl : ∀ pre : Str, (pre ++ x).getLast? ≠ some 47 := by
      intro pre e
      rw [List.getLast?_append, List.getLast?_eq_some_getLast hx.1, Option.some_or, ← List.getLast?_eq_some_getLast hx.1] at e
      exact (hx.2.1 47 (List.mem_of_getLast? e)).2.1 rfl
    have : ∃ pre, pathText ab (ms ++ [x]) = pre ++ x := by
      unfold pathText
      by_cases hms : ms = []
      · subst hms
        cases ab
        · exact ⟨[], rfl⟩
        · exact ⟨[47], rfl⟩
      · rw [slashed_append _ _ hms]
        cases ab
        · exact ⟨slashed ms ++ [47], by simp⟩
        · exact ⟨47 :: (slashed ms ++ [47]), by simp⟩
    obtain ⟨pre, e⟩ := this
    rw [e]; exact hxl pre
  unfold stat
  rw [cstr_pathText ab hp, locate_pathText fs ab hne hp]
  cases hw : fs.walk (fs.base ab) ns with
  | none =>
    dsimp only
    cases hn : fs.node (fs.base ab ++ ns) with
    | none => rfl
    | some n =>
      rw [walk_plain hp (fun m hm hne => h.strict_prefix (by rw [hn]; simp) hm hne)] at hw
      cases hw
  | some r =>
    obtain ⟨rfl, _⟩ := walk_eq_some hp hw
    dsimp only
    rw [if_neg]
    exact fun hc => hlast hc.1

theorem base_folder {fs : Fs} (h : WF fs) (ab : Bool) : fs.node (fs.base ab) = some .folder := by
  unfold base
  cases ab
  · exact h.cwd
  · exact h.root

/-- The parent of a plain path. -/
theorem parent_pathText (ab : Bool) (ns : List Str) (x : Str) (hp : ∀ w ∈ ns ++ [x], PlainName w) (hne : ns ≠ []) :
    hasParentPath (pathText ab (ns ++ [x])) = true ∧ parentPath (pathText ab (ns ++ [x])) = .ok (pathText ab ns) := by
  have hx := hp x (by simp)
  have e : pathText ab (ns ++ [x]) = pathText ab ns ++ 47 :: x := by
    unfold pathText
    rw [slashed_append _ _ hne]
    cases ab <;> simp
  rw [e]
  have hb : ∀ d ∈ x, ¬ Spec.IsSep d := by
    intro d hd
    have := hx.2.1 d hd
    unfold Spec.IsSep
    simp [this.2.1, this.2.2]
  obtain ⟨h1, _, _, h4⟩ := C10_decompose (pathText ab ns) x 47 (.inl rfl) hb
  exact ⟨h4, h1⟩

theorem AddsFolders.wf_put {fs : Fs} (h : WF fs) {l : Loc} {x : Str} (hl : fs.node l = some .folder) (hn : fs.node (l ++ [x]) = none) :
    WF (fs.put (l ++ [x]) .folder) := by
  have ha := put_addsFolders hn
  refine ⟨ha.keeps h.root, ha.keeps h.cwd, ?_⟩
  intro m y hm
  by_cases e : m ++ [y] = l ++ [x]
  · obtain ⟨rfl, _⟩ := by simpa using e
    exact ha.keeps hl
  · simp only [put, e, if_false] at hm
    exact ha.keeps (h.parent m y hm)

theorem mkdir_plain {fs : Fs} (h : WF fs) (ab : Bool) {ns : List Str} {x : Str} (hp : ∀ w ∈ ns ++ [x], PlainName w)
    (hf : fs.node (fs.base ab ++ ns) = some .folder) (hw : fs.writable (fs.base ab ++ (ns ++ [x])) = true) :
    fs.mkdir (pathText ab (ns ++ [x])) =
      if fs.node (fs.base ab ++ (ns ++ [x])) = none then (true, fs.put (fs.base ab ++ (ns ++ [x])) .folder) else (false, fs) := by
  have hwalk : fs.walk (fs.base ab) (ns ++ [x]) = some (fs.base ab ++ (ns ++ [x])) := by
    apply walk_plain hp
    intro m hm hne
    have hm' : m <+: ns := by
      rcases List.prefix_concat_iff.1 hm with e | e
      · exact absurd e hne
      · exact e
    by_cases e : m = ns
    · subst e; exact hf
    · exact h.strict_prefix (by rw [hf]; simp) hm' e
  unfold mkdir
  rw [cstr_pathText ab hp, locate_pathText fs ab (by simp) hp, hwalk]
  dsimp only
  simp only [hw, and_true]

/-- What `create_directories` does on a plain path when no file is in the way and the user may create the folders. -/
theorem createDirsN_plain (ab : Bool) (ns : List Str) : ∀ (n : Nat) (fs : Fs), WF fs → (∀ w ∈ ns, PlainName w) → ns ≠ [] →
    ns.length < n →
    (∀ m, m <+: ns → m ≠ ns → fs.node (fs.base ab ++ m) = none ∨ fs.node (fs.base ab ++ m) = some .folder) →
    (∀ m, m <+: ns → fs.writable (fs.base ab ++ m) = true) →
    ((createDirsN n fs (pathText ab ns)).1 = decide (fs.node (fs.base ab ++ ns) = none)) ∧
    WF (createDirsN n fs (pathText ab ns)).2 ∧
    (∀ m, m <+: ns → (createDirsN n fs (pathText ab ns)).2.node (fs.base ab ++ m) = if m = ns ∧ fs.node (fs.base ab ++ ns) ≠ none
      then fs.node (fs.base ab ++ ns) else some .folder) ∧
    (∀ l, (∀ m, m <+: ns → l ≠ fs.base ab ++ m) → (createDirsN n fs (pathText ab ns)).2.node l = fs.node l) := by
  induction ns using List.reverseRecOn with
  | nil => intro n fs _ _ hne; exact absurd rfl hne
  | append_singleton ns x ih =>
    intro n fs hwf hp _ hn hfree hwr
    cases n with
    | zero => simp at hn
    | succ n =>
      have hbase := base_folder hwf ab
      -- the file system after the parents are made
      obtain ⟨fs1, hfs1, hwf1, hadd, hpre, hrest⟩ : ∃ fs1, createDirsN (n + 1) fs (pathText ab (ns ++ [x])) = fs1.mkdir (pathText ab (ns ++ [x])) ∧
          WF fs1 ∧ AddsFolders fs fs1 ∧ (∀ m, m <+: ns → fs1.node (fs.base ab ++ m) = some .folder) ∧
          (∀ l, (∀ m, m <+: ns → l ≠ fs.base ab ++ m) → fs1.node l = fs.node l) := by
        by_cases hns : ns = []
        · subst hns
          have hpre : ∀ (fs1 : Fs), AddsFolders fs fs1 → ∀ m, m <+: ([] : List Str) → fs1.node (fs.base ab ++ m) = some .folder := by
            intro fs1 h1 m hm
            have : m = [] := by simpa using hm
            subst this
            rw [List.append_nil]
            exact h1.keeps hbase
          refine ⟨fs, ?_, hwf, .refl _, hpre _ (.refl _), fun _ _ => rfl⟩
          have hx := hp x (by simp)
          have hsep : ∀ d ∈ x, ¬ Spec.IsSep d := by
            intro d hd
            have := hx.2.1 d hd
            unfold Spec.IsSep
            simp [this.2.1, this.2.2]
          rw [createDirsN]
          cases ab
          · have e : pathText false ([] ++ [x]) = x := rfl
            rw [e, (C10_no_separator x hsep).2.2.2]
            simp
          · have e : pathText true ([] ++ [x]) = [] ++ 47 :: x := rfl
            obtain ⟨h1, _, _, h4⟩ := C10_decompose [] x 47 (.inl rfl) hsep
            rw [e, h4, h1]
            dsimp only
            have hmk : ∀ k, (createDirsN k fs []).2 = fs := by
              intro k
              cases k with
              | zero => rfl
              | succ k =>
                rw [createDirsN]
                have : hasParentPath [] = false := by decide
                rw [this]
                rfl
            rw [hmk]
            simp
        · have hpn : ∀ w ∈ ns, PlainName w := fun w hw => hp w (by simp [hw])
          obtain ⟨h1, h2⟩ := parent_pathText ab ns x hp hns
          have hpar : createDirsN (n + 1) fs (pathText ab (ns ++ [x])) =
              (if fs.folderExists (pathText ab ns) then fs else (createDirsN n fs (pathText ab ns)).2).mkdir (pathText ab (ns ++ [x])) := by
            rw [createDirsN]
            rw [h1, h2]
            rfl
          by_cases hex : fs.node (fs.base ab ++ ns) = some .folder
          · have : fs.folderExists (pathText ab ns) = true := by
              unfold folderExists
              rw [stat_pathText hwf ab hns hpn, hex]
              rfl
            rw [this, if_pos rfl] at hpar
            refine ⟨fs, hpar, hwf, .refl _, ?_, fun _ _ => rfl⟩
            intro m hm
            by_cases e : m = ns
            · subst e; exact hex
            · exact hwf.strict_prefix (by rw [hex]; simp) hm e
          · have : fs.folderExists (pathText ab ns) = false := by
              unfold folderExists
              rw [stat_pathText hwf ab hns hpn]
              simp [hex]
            rw [this] at hpar
            simp only [Bool.false_eq_true, if_false] at hpar
            have hnone : fs.node (fs.base ab ++ ns) = none := by
              rcases hfree ns (by simp) (by simp) with e | e
              · exact e
              · exact absurd e hex
            obtain ⟨_, i2, i3, i4⟩ := ih n fs hwf hpn hns (by simp at hn; omega)
              (fun m hm hne => hfree m (hm.trans (by simp)) (by rintro rfl; have h := hm.length_le; rw [List.length_append, List.length_singleton] at h; omega))
              (fun m hm => hwr m (hm.trans (by simp)))
            refine ⟨_, hpar, i2, createDirsN_addsFolders _ _ _, ?_, i4⟩
            intro m hm
            rw [i3 m hm, if_neg]
            simp [hnone]
      have hcwd : fs1.base ab = fs.base ab := by
        unfold base
        rw [hadd.cwd]
      have hsame : fs1.node (fs.base ab ++ (ns ++ [x])) = fs.node (fs.base ab ++ (ns ++ [x])) := by
        apply hrest
        intro m hm e
        have := List.append_cancel_left e
        rw [← this] at hm
        have h := hm.length_le
        rw [List.length_append, List.length_singleton] at h
        omega
      have hmk := mkdir_plain hwf1 ab hp (by rw [hcwd]; exact hpre ns (by simp)) (by rw [hcwd, hadd.writable]; exact hwr _ (by simp))
      rw [hcwd, hsame] at hmk
      rw [hfs1, hmk]
      by_cases hfinal : fs.node (fs.base ab ++ (ns ++ [x])) = none
      · simp only [hfinal, if_true, ne_eq, not_true, and_false, if_false, decide_true, true_and]
        refine ⟨?_, ?_, ?_⟩
        · rw [← List.append_assoc]
          refine AddsFolders.wf_put hwf1 (hpre ns (by simp)) ?_
          rw [List.append_assoc, hsame]; exact hfinal
        · intro m hm
          simp only [put]
          split
          · rfl
          · rename_i hne
            rcases List.prefix_concat_iff.1 hm with e | e
            · subst e; exact absurd rfl hne
            · exact hpre m e
        · intro l hl
          simp only [put]
          rw [if_neg (hl _ (by simp))]
          exact hrest l (fun m hm => hl m (hm.trans (by simp)))
      · simp only [hfinal, if_false, ne_eq, not_false_eq_true, and_true, decide_false, true_and]
        refine ⟨hwf1, ?_, ?_⟩
        · intro m hm
          by_cases e : m = ns ++ [x]
          · rw [if_pos e, e, hsame]
          · rw [if_neg e]
            rcases List.prefix_concat_iff.1 hm with e' | e'
            · exact absurd e' e
            · exact hpre m e'
        · intro l hl
          exact hrest l (fun m hm => hl m (hm.trans (by simp)))

/-- Enough fuel is enough. -/
theorem createDirsN_fuel (n : Nat) : ∀ (fs : Fs) (p : Str), p.length < n → createDirsN n fs p = createDirectories fs p := by
  have key : ∀ n m (fs : Fs) (p : Str), p.length < n → p.length < m → createDirsN n fs p = createDirsN m fs p := by
    intro n
    induction n with
    | zero => intro m fs p h; omega
    | succ n ih =>
      intro m fs p hn hm
      cases m with
      | zero => omega
      | succ m =>
        rw [createDirsN, createDirsN]
        rcases exists_lastSep p with h | ⟨a, c, b, rfl, hc, hb⟩
        · rw [(C10_no_separator p h).2.2.2]; rfl
        · obtain ⟨h1, _, _, h4⟩ := C10_decompose a b c hc hb
          rw [h4, h1]
          dsimp only
          rw [ih m fs a (by simp at hn; omega) (by simp at hm; omega)]
  intro fs p h
  exact key _ _ _ _ h (by omega)

end Fs

end Flut
