import Verif.Proofs.FileSystem
import Verif.Props.PropText
import Verif.Props.Ini

/-!
# Folders and files (C50, C51, C52)
-/

namespace Flut

open Spec Fs

/-! ## C50 -/

/-- `create_directories` never changes or removes anything; if it returns true the folder is new. -/
theorem C50_create_directories_fresh (fs : Fs) (p : Str) :
    AddsFolders fs (fs.createDirectories p).2 ∧
    ((fs.createDirectories p).1 = true → fs.stat p = none ∧ (fs.createDirectories p).2.stat p = some .folder) :=
  ⟨createDirsN_addsFolders _ _ _, createDirsN_true⟩

example : (Fs.empty.createDirectories b!"a/b").1 = true ∧ (Fs.empty.createDirectories b!"a/b").2.stat b!"a" = some .folder ∧
    (Fs.empty.createDirectories b!"a/b").2.stat b!"a/b/" = some .folder := by decide +kernel

/-- On an ordinary path, with no file in the way and permission to create it, every folder of the path exists afterwards,
nothing else has changed, and the result says whether the last one is new. -/
theorem C50_create_directories (fs : Fs) (absolute : Bool) (ns : List Str) (hwf : WF fs) (hp : ∀ w ∈ ns, PlainName w)
    (hne : ns ≠ [])
    (hfree : ∀ m, m <+: ns → fs.node (fs.base absolute ++ m) = none ∨ fs.node (fs.base absolute ++ m) = some .folder)
    (hwr : ∀ m, m <+: ns → fs.writable (fs.base absolute ++ m) = true) :
    let r := fs.createDirectories (pathText absolute ns)
    (r.1 = true ↔ fs.node (fs.base absolute ++ ns) = none) ∧ WF r.2 ∧
    (∀ m, m <+: ns → r.2.node (fs.base absolute ++ m) = some .folder) ∧
    (∀ l, (∀ m, m <+: ns → l ≠ fs.base absolute ++ m) → r.2.node l = fs.node l) := by
  intro r
  have hlen : ns.length < (pathText absolute ns).length + 1 := by
    have : ∀ ns : List Str, (∀ w ∈ ns, PlainName w) → ns.length ≤ (slashed ns).length := by
      intro ns
      induction ns with
      | nil => intro _; simp
      | cons w ws ih =>
        intro hp
        have hw := List.length_pos_iff.2 (hp w (by simp)).1
        have ih := ih (fun v hv => hp v (by simp [hv]))
        cases ws with
        | nil => simp only [slashed, List.length_cons, List.length_nil]; omega
        | cons v vs =>
          simp only [slashed, List.length_append, List.length_cons] at ih ⊢
          omega
    have := this ns hp
    unfold pathText
    cases absolute <;> simp <;> omega
  obtain ⟨h1, h2, h3, h4⟩ := createDirsN_plain absolute ns _ fs hwf hp hne hlen (fun m hm _ => hfree m hm) hwr
  refine ⟨?_, h2, ?_, h4⟩
  · show (createDirsN _ _ _).1 = true ↔ _
    rw [h1]
    simp
  · intro m hm
    show (createDirsN _ _ _).2.node _ = _
    rw [h3 m hm]
    split
    · rename_i hc
      rcases hfree ns (List.prefix_refl _) with e | e
      · exact absurd e hc.2
      · exact e
    · rfl

example : WF Fs.empty ∧ PlainName b!"out" ∧ PlainName b!"run 1" ∧ pathText false [b!"out", b!"run 1"] = b!"out/run 1" ∧
    pathText true [b!"out"] = b!"/out" := by
  refine ⟨⟨rfl, rfl, ?_⟩, by decide, by decide, by decide, by decide⟩
  intro l x h
  simp [Fs.empty] at h

/-- With a slash at the end it creates the folder and reports failure. -/
theorem C50_trailing_slash_refuted :
    (Fs.empty.createDirectories b!"a/").1 = false ∧ Fs.empty.stat b!"a/" = none ∧
    (Fs.empty.createDirectories b!"a/").2.stat b!"a/" = some .folder := by decide +kernel

/-- The names tried: the requested one, then that with ` (1)`, ` (2)`, ... -/
theorem C50_names (folder : Str) : uniqueName folder 0 = folder ∧
    ∀ i, ∃ d, IsDigits d ∧ decValue d = i + 1 ∧ uniqueName folder (i + 1) = folder ++ b!" (" ++ d ++ b!")" :=
  ⟨rfl, fun i => ⟨natStr (i + 1), (natStr_digits _).1, (natStr_digits _).2, by simp [uniqueName]⟩⟩

example : uniqueName b!"run" 12 = b!"run (12)" := by decide +kernel

theorem uniqueLoop_addsFolders (folder : Str) (n i : Nat) (fs : Fs) : AddsFolders fs (uniqueLoop folder n i fs).2 := by
  induction n generalizing i fs with
  | zero => exact .refl _
  | succ n ih =>
    unfold uniqueLoop
    split
    · exact ih _ _
    · have h := (C50_create_directories_fresh fs (uniqueName folder i)).1
      split
      · rename_i fs' e; rw [e] at h; exact h
      · rename_i fs' e; rw [e] at h; exact h.trans (ih _ _)

theorem stat_none_mono {a b : Fs} (h : AddsFolders a b) {p : Str} (hp : b.stat p = none) : a.stat p = none := by
  unfold stat at hp ⊢
  cases hl : a.locate (cstr p) with
  | none => rfl
  | some l =>
    rw [locate_mono h hl] at hp
    dsimp only at hp ⊢
    rcases h.node l with e | ⟨e, e'⟩
    · rw [e] at hp; exact hp
    · simp [e]

/-- Whatever the file system: the folder returned did not exist before and exists afterwards, it has one of the names tried,
no other kind of change was made, and nothing was changed or removed. -/
theorem C50_unique_fresh (fs : Fs) (folder : Str) (maxAttempts : Int) :
    AddsFolders fs (fs.createUniqueFolder folder maxAttempts).2 ∧
    ∀ u, (fs.createUniqueFolder folder maxAttempts).1 = .ok u →
      fs.stat u = none ∧ (fs.createUniqueFolder folder maxAttempts).2.stat u = some .folder ∧
      ∃ i : Nat, (i : Int) < maxAttempts ∧ u = uniqueName folder i := by
  refine ⟨uniqueLoop_addsFolders _ _ _ _, ?_⟩
  have key : ∀ (n i : Nat) (fs : Fs) u, (uniqueLoop folder n i fs).1 = .ok u →
      fs.stat u = none ∧ (uniqueLoop folder n i fs).2.stat u = some .folder ∧ ∃ j : Nat, j < i + n ∧ u = uniqueName folder j := by
    intro n
    induction n with
    | zero => intro i fs u h; cases h
    | succ n ih =>
      intro i fs u h
      unfold uniqueLoop at h ⊢
      split at h
      · rename_i hc
        rw [if_pos hc]
        obtain ⟨h1, h2, j, h3, h4⟩ := ih _ _ _ h
        exact ⟨h1, h2, j, by omega, h4⟩
      · rename_i hc
        rw [if_neg hc]
        have hf := C50_create_directories_fresh fs (uniqueName folder i)
        split at h
        · rename_i fs' e
          rw [e] at hf
          simp only [Res.ok.injEq] at h
          subst h
          exact ⟨(hf.2 rfl).1, (hf.2 rfl).2, i, by omega, rfl⟩
        · rename_i fs' e
          rw [e] at hf
          obtain ⟨h1, h2, j, h3, h4⟩ := ih _ _ _ h
          exact ⟨stat_none_mono hf.1 h1, h2, j, by omega, h4⟩
  intro u hu
  obtain ⟨h1, h2, j, h3, h4⟩ := key _ _ _ u hu
  exact ⟨h1, h2, j, by omega, h4⟩

example : (Fs.empty.createUniqueFolder b!"run" 9999).1 = .ok b!"run" ∧
    ((Fs.empty.createUniqueFolder b!"run" 9999).2.createUniqueFolder b!"run" 9999).1 = .ok b!"run (1)" := by decide +kernel

theorem natStr_plain (n : Nat) : ∀ c ∈ natStr n, c ≠ 0 ∧ c ≠ 47 ∧ c ≠ 92 := by
  intro c hc
  have := (natStr_digits n).1.2 c hc
  refine ⟨?_, ?_, ?_⟩ <;> (rintro rfl; simp at this)

theorem uniqueName_plain {x : Str} (hx : PlainName x) (i : Nat) : PlainName (uniqueName x i) := by
  unfold uniqueName
  split
  · refine ⟨by simp, ?_, ?_, ?_⟩
    · intro c hc
      simp only [List.append_assoc, List.mem_append] at hc
      rcases hc with hc | hc | hc | hc
      · exact hx.2.1 c hc
      · revert c; decide
      · exact natStr_plain i c hc
      · revert c; decide
    · intro e
      have := congrArg List.length e
      simp at this
      omega
    · intro e
      have h1 := congrArg List.length e
      have := List.length_pos_iff.2 hx.1
      simp at h1
      omega
  · exact hx

theorem uniqueName_path (ab : Bool) (ms : List Str) (x : Str) (i : Nat) :
    uniqueName (pathText ab (ms ++ [x])) i = pathText ab (ms ++ [uniqueName x i]) := by
  unfold uniqueName
  split
  · unfold pathText
    by_cases h : ms = []
    · subst h; cases ab <;> simp [slashed]
    · rw [slashed_append _ _ h, slashed_append _ _ h]
      cases ab <;> simp
  · rfl

/-- One round on an ordinary path. -/
theorem unique_round (ab : Bool) (ms : List Str) (x : Str) (fs : Fs) (hwf : WF fs) (hp : ∀ w ∈ ms ++ [x], PlainName w)
    (hfree : ∀ m, m <+: ms → fs.node (fs.base ab ++ m) = none ∨ fs.node (fs.base ab ++ m) = some .folder)
    (hwr : ∀ l, fs.writable l = true) :
    (fs.node (fs.base ab ++ (ms ++ [x])) = none →
      fs.folderExists (pathText ab (ms ++ [x])) = false ∧ (fs.createDirectories (pathText ab (ms ++ [x]))).1 = true) ∧
    (fs.node (fs.base ab ++ (ms ++ [x])) ≠ none →
      fs.folderExists (pathText ab (ms ++ [x])) = true ∨ fs.createDirectories (pathText ab (ms ++ [x])) = (false, fs)) := by
  have hlen : (ms ++ [x]).length < (pathText ab (ms ++ [x])).length + 1 := by
    have : ∀ ns : List Str, (∀ w ∈ ns, PlainName w) → ns.length ≤ (slashed ns).length := by
      intro ns
      induction ns with
      | nil => intro _; simp
      | cons w ws ih =>
        intro hp
        have hw := List.length_pos_iff.2 (hp w (by simp)).1
        have ih := ih (fun v hv => hp v (by simp [hv]))
        cases ws with
        | nil => simp only [slashed, List.length_cons, List.length_nil]; omega
        | cons v vs =>
          simp only [slashed, List.length_append, List.length_cons] at ih ⊢
          omega
    have := this _ hp
    unfold pathText
    cases ab <;> simp at this ⊢ <;> omega
  have hfree' : ∀ m, m <+: ms ++ [x] → m ≠ ms ++ [x] → fs.node (fs.base ab ++ m) = none ∨ fs.node (fs.base ab ++ m) = some .folder := by
    intro m hm hne
    rcases List.prefix_concat_iff.1 hm with e | e
    · exact absurd e hne
    · exact hfree m e
  obtain ⟨h1, h2, h3, h4⟩ := createDirsN_plain ab (ms ++ [x]) _ fs hwf hp (by simp) hlen hfree' (fun _ _ => hwr _)
  have hst := stat_pathText hwf ab (ns := ms ++ [x]) (by simp) hp
  constructor
  · intro hn
    refine ⟨?_, ?_⟩
    · unfold folderExists
      rw [hst, hn]
      rfl
    · show (createDirsN _ _ _).1 = true
      rw [h1, hn]
      rfl
  · intro hn
    right
    show createDirsN _ _ _ = _
    refine Prod.ext ?_ ?_
    · rw [h1]; simp [hn]
    · have ha := createDirsN_addsFolders ((pathText ab (ms ++ [x])).length + 1) fs (pathText ab (ms ++ [x]))
      generalize createDirsN ((pathText ab (ms ++ [x])).length + 1) fs (pathText ab (ms ++ [x])) = r at *
      have hnode : r.2.node = fs.node := by
        funext l
        rcases ha.node l with e | ⟨e, e'⟩
        · exact e
        · by_cases hl : ∃ m, m <+: ms ++ [x] ∧ l = fs.base ab ++ m
          · obtain ⟨m, hm, rfl⟩ := hl
            by_cases hmx : m = ms ++ [x]
            · subst hmx; exact absurd e hn
            · rw [hwf.strict_prefix hn hm hmx] at e; cases e
          · exact h4 l (fun m hm e => hl ⟨m, hm, e⟩)
      obtain ⟨_, fs'⟩ := r
      cases fs'
      cases fs
      have e1 := ha.cwd
      have e2 := ha.readable
      have e3 := ha.writable
      simp only at e1 e2 e3 hnode
      subst e1 e2 e3 hnode
      rfl

/-- On an ordinary path, with no file in the way and permission to write, the least free name is taken; if all names are taken
it throws and nothing changes. -/
theorem C50_unique_least_partial (fs : Fs) (absolute : Bool) (ms : List Str) (x : Str) (maxAttempts : Int) (hwf : WF fs)
    (hp : ∀ w ∈ ms ++ [x], PlainName w)
    (hfree : ∀ m, m <+: ms → fs.node (fs.base absolute ++ m) = none ∨ fs.node (fs.base absolute ++ m) = some .folder)
    (hwr : ∀ l, fs.writable l = true) :
    let used := fun i => fs.node (fs.base absolute ++ (ms ++ [uniqueName x i])) ≠ none
    let r := fs.createUniqueFolder (pathText absolute (ms ++ [x])) maxAttempts
    (∀ i : Nat, (i : Int) < maxAttempts → ¬ used i → (∀ j, j < i → used j) →
      r.1 = .ok (pathText absolute (ms ++ [uniqueName x i]))) ∧
    ((∀ i : Nat, (i : Int) < maxAttempts → used i) → r = (.throws .flutError, fs)) := by
  intro used r
  have hp' : ∀ i, ∀ w ∈ ms ++ [uniqueName x i], PlainName w := by
    intro i w hw
    rcases List.mem_append.1 hw with hw | hw
    · exact hp w (by simp [hw])
    · simp only [List.mem_singleton] at hw
      subst hw
      exact uniqueName_plain (hp x (by simp)) i
  have skip : ∀ n i, used i → uniqueLoop (pathText absolute (ms ++ [x])) (n + 1) i fs = uniqueLoop (pathText absolute (ms ++ [x])) n (i + 1) fs := by
    intro n i hu
    rw [uniqueLoop, uniqueName_path]
    rcases (unique_round absolute ms (uniqueName x i) fs hwf (hp' i) hfree hwr).2 hu with h | h
    · rw [if_pos h]
    · rw [h]
      split <;> rfl
  have skips : ∀ k n i, (∀ j, i ≤ j → j < i + k → used j) →
      uniqueLoop (pathText absolute (ms ++ [x])) (n + k) i fs = uniqueLoop (pathText absolute (ms ++ [x])) n (i + k) fs := by
    intro k
    induction k with
    | zero => intro n i _; rfl
    | succ k ih =>
      intro n i h
      rw [← Nat.add_assoc, skip _ _ (h i (by omega) (by omega)), ih n (i + 1) (fun j h1 h2 => h j (by omega) (by omega))]
      congr 1
      omega
  constructor
  · intro i hi hn hj
    show (uniqueLoop _ maxAttempts.toNat 0 fs).1 = _
    obtain ⟨n, hnn⟩ : ∃ n, maxAttempts.toNat = (n + 1) + i := ⟨maxAttempts.toNat - i - 1, by omega⟩
    rw [hnn, skips i (n + 1) 0 (fun j _ h => hj j (by omega)), Nat.zero_add, uniqueLoop, uniqueName_path]
    have hn' : fs.node (fs.base absolute ++ (ms ++ [uniqueName x i])) = none := not_not.1 hn
    obtain ⟨h1, h2⟩ := (unique_round absolute ms (uniqueName x i) fs hwf (hp' i) hfree hwr).1 hn'
    rw [h1]
    simp only [Bool.false_eq_true, if_false]
    split
    · rfl
    · rename_i e; rw [e] at h2; cases h2
  · intro h
    show uniqueLoop _ maxAttempts.toNat 0 fs = _
    have := skips maxAttempts.toNat 0 0 (fun j _ hj => h j (by omega))
    rw [Nat.zero_add] at this
    rw [this]
    rfl

example : ∃ fs : Fs, WF fs ∧ (fs.createUniqueFolder b!"a/run" 10).1 = .ok b!"a/run (1)" ∧
    (fs.createUniqueFolder b!"a/run" 1).1 = .throws .flutError := by
  refine ⟨⟨fun l => if l = [] ∨ l = [b!"a"] ∨ l = [b!"a", b!"run"] then some .folder else none, [], fun _ => true, fun _ => true⟩,
    ⟨by decide, by decide, ?_⟩, by decide +kernel, by decide +kernel⟩
  intro l x h
  simp only [ne_eq, ite_eq_right_iff, reduceCtorEq, imp_false, not_not] at h
  rcases h with h | h | h
  · simp at h
  · have := List.append_eq_singleton_iff.1 h
    simp at this
    simp [this]
  · have : l ++ [x] = [b!"a"] ++ [b!"run"] := h
    have := (List.append_inj' this rfl).1
    simp [this]

/-- With a slash at the end of the requested name the folder itself is made as a side effect, and the one returned is inside it. -/
theorem C50_unique_slash_refuted :
    (Fs.empty.createUniqueFolder b!"run/" 10).1 = .ok b!"run/ (1)" ∧ Fs.empty.stat b!"run" = none ∧
    (Fs.empty.createUniqueFolder b!"run/" 10).2.stat b!"run" = some .folder := by decide +kernel

/-! ## C51 -/

theorem openWrite_some {fs fs1 : Fs} {p : Str} {l : Loc} (h : fs.openWrite p = some (l, fs1)) :
    fs.locate (cstr p) = some l ∧ fs1 = fs.put l (.file []) ∧ (cstr p).getLast? ≠ some 47 ∧ fs.node l ≠ some .folder ∧
      fs.writable l = true := by
  unfold openWrite at h
  cases hl : fs.locate (cstr p) with
  | none => rw [hl] at h; cases h
  | some m =>
    rw [hl] at h
    dsimp only at h
    split at h
    · cases h
    · rename_i hc
      simp only [Option.some.injEq, Prod.mk.injEq] at h
      obtain ⟨rfl, rfl⟩ := h
      simp only [not_or] at hc
      exact ⟨rfl, rfl, hc.1, hc.2.1, by simpa using hc.2.2⟩

theorem openRead_some {fs : Fs} {p : Str} {l : Loc} (h : fs.openRead p = some l) :
    fs.locate (cstr p) = some l ∧ fs.stat p = fs.node l ∧ (fs.stat p).isSome ∧ fs.readable l = true := by
  unfold openRead at h
  cases hl : fs.locate (cstr p) with
  | none => rw [hl] at h; cases h
  | some m =>
    rw [hl] at h
    dsimp only at h
    split at h
    · rename_i hc
      simp only [Option.some.injEq] at h
      subst h
      refine ⟨rfl, ?_, hc⟩
      have h1 := hc.1
      unfold stat at h1 ⊢
      rw [hl] at h1 ⊢
      dsimp only at h1 ⊢
      split
      · rename_i h2; rw [if_pos h2] at h1; cases h1
      · rfl
    · cases h

/-- Path resolution only depends on which locations are folders. -/
theorem walk_put_file {fs : Fs} {l : Loc} {c : Str} (hl : fs.node l ≠ some .folder) (m : Loc) (ns : List Str) :
    (fs.put l (.file c)).walk m ns = fs.walk m ns := by
  induction ns generalizing m with
  | nil => rfl
  | cons n ns ih =>
    unfold walk
    have : (fs.put l (.file c)).step m n = fs.step m n := by
      unfold step
      have : (fs.put l (.file c)).node m = some .folder ↔ fs.node m = some .folder := by
        unfold put
        by_cases e : m = l
        · subst e; simp [hl]
        · simp [e]
      by_cases h : fs.node m = some .folder
      · rw [if_pos h, if_pos (this.2 h)]
      · rw [if_neg h, if_neg (fun x => h (this.1 x))]
    rw [this]
    congr 1
    funext m'
    exact ih m'

theorem locate_put_file {fs : Fs} {l : Loc} {c : Str} (hl : fs.node l ≠ some .folder) (p : Str) :
    (fs.put l (.file c)).locate p = fs.locate p := by
  unfold locate
  rw [walk_put_file hl]
  rfl

theorem stat_put_file {fs : Fs} {l : Loc} {c p : Str} (hl : fs.node l ≠ some .folder) (hp : fs.locate (cstr p) = some l)
    (hs : (cstr p).getLast? ≠ some 47) : (fs.put l (.file c)).stat p = some (.file c) := by
  unfold stat
  rw [locate_put_file hl, hp]
  dsimp only
  rw [if_neg (fun h => hs h.1)]
  simp [put]

theorem put_put (fs : Fs) (l : Loc) (a b : FsNode) : (fs.put l a).put l b = fs.put l b := by
  unfold put
  congr 1
  funext m
  by_cases e : m = l <;> simp [e]

/-- If `copy_file` returns true and source and destination are different files, the destination then holds what the source
held, and nothing else has changed. -/
theorem C51_copies_partial (fs : Fs) (src dst : Str) (overwrite : Bool) (content : Str)
    (h : (fs.copyFile src dst overwrite).1 = true) (hsrc : fs.stat src = some (.file content))
    (hdiff : fs.locate (cstr src) ≠ fs.locate (cstr dst)) :
    (fs.copyFile src dst overwrite).2.stat dst = some (.file content) ∧
    ∃ l, fs.locate (cstr dst) = some l ∧ ChangesOnly l fs (fs.copyFile src dst overwrite).2 := by
  unfold copyFile at h ⊢
  split at h
  · rename_i hc
    rw [if_pos hc]
    dsimp only at h ⊢
    split at h
    · cases h
    · rename_i d fs1 hw
      obtain ⟨h1, h2, h3, h4, h5⟩ := openWrite_some hw
      split at h
      · cases h
      · rename_i l hr
        obtain ⟨r1, r2, r3, r4⟩ := openRead_some hr
        dsimp only
        have hld : l ≠ d := by
          rintro rfl
          exact hdiff (by rw [r1, h1])
        have hread : fs1.readAll l = content := by
          rw [h2]
          unfold readAll put
          simp only [hld, if_false]
          rw [← r2, hsrc]
        rw [hread, h2, put_put]
        refine ⟨stat_put_file h4 h1 h3, d, h1, rfl, rfl, rfl, ?_⟩
        intro m hm
        simp [put, hm]
  · cases h

/-- A file system with one file, for examples. -/
def oneFile : Fs := Fs.empty.put [b!"f"] (.file b!"data")

example : (oneFile.copyFile b!"f" b!"g" false).1 = true ∧ (oneFile.copyFile b!"f" b!"g" false).2.stat b!"g" = some (.file b!"data") ∧
    oneFile.locate (cstr b!"f") ≠ oneFile.locate (cstr b!"g") := by decide +kernel

/-- It does copy when the source is a readable file, the destination is in an existing folder and writable, is not a folder,
and either does not exist or may be overwritten. -/
theorem C51_succeeds (fs : Fs) (src dst : Str) (overwrite : Bool) (ls ld : Loc)
    (h1 : fs.locate (cstr src) = some ls) (h2 : (fs.stat src).isSome) (h3 : fs.readable ls = true)
    (h4 : fs.locate (cstr dst) = some ld) (h5 : (cstr dst).getLast? ≠ some 47) (h6 : fs.node ld ≠ some .folder)
    (h7 : fs.writable ld = true) (h8 : overwrite = true ∨ fs.stat dst = none) :
    (fs.copyFile src dst overwrite).1 = true := by
  have hr : fs.openRead src = some ls := by
    unfold openRead
    rw [h1]
    dsimp only
    rw [if_pos ⟨h2, h3⟩]
  have hw : fs.openWrite dst = some (ld, fs.put ld (.file [])) := by
    unfold openWrite
    rw [h4]
    dsimp only
    rw [if_neg]
    simp [h5, h6, h7]
  have hc : (overwrite || !fs.fileExists dst) = true := by
    rcases h8 with h | h
    · simp [h]
    · have : fs.openRead dst = none := by
        unfold openRead
        rw [h4, h]
        simp
      simp [fileExists, this]
  unfold copyFile
  rw [if_pos hc, hw, hr]

example : (oneFile.stat b!"f").isSome ∧ oneFile.stat b!"g" = none ∧ oneFile.locate (cstr b!"g") = some [b!"g"] := by decide +kernel

/-- Without permission to overwrite, an existing readable destination is left alone and false is returned. -/
theorem C51_no_overwrite (fs : Fs) (src dst : Str) (h : fs.fileExists dst = true) : fs.copyFile src dst false = (false, fs) := by
  unfold copyFile
  rw [h]
  rfl

example : oneFile.fileExists b!"f" = true := by decide +kernel

/-- If it returns false, nothing has changed but possibly the destination. -/
theorem C51_false_partial (fs : Fs) (src dst : Str) (overwrite : Bool) (h : (fs.copyFile src dst overwrite).1 = false) :
    (fs.copyFile src dst overwrite).2 = fs ∨
    ∃ l, fs.locate (cstr dst) = some l ∧ ChangesOnly l fs (fs.copyFile src dst overwrite).2 := by
  unfold copyFile at h ⊢
  split at h
  · rename_i hc
    rw [if_pos hc]
    dsimp only at h ⊢
    split at h
    · exact .inl rfl
    · rename_i d fs1 hw
      obtain ⟨h1, h2, _⟩ := openWrite_some hw
      split at h
      · rename_i hr
        right
        refine ⟨d, h1, ?_⟩
        rw [h2]
        exact ⟨rfl, rfl, rfl, fun m hm => by simp [put, hm]⟩
      · cases h
  · rename_i hc
    rw [if_neg hc]
    exact .inl rfl

/-- But a missing source empties the destination, and copying a file onto itself empties it and returns true. -/
theorem C51_refuted :
    ((oneFile.copyFile b!"missing" b!"f" true).1 = false ∧ (oneFile.copyFile b!"missing" b!"f" true).2.stat b!"f" = some (.file [])) ∧
    ((oneFile.copyFile b!"missing" b!"new" false).1 = false ∧
      (oneFile.copyFile b!"missing" b!"new" false).2.stat b!"new" = some (.file [])) ∧
    ((oneFile.copyFile b!"f" b!"./f" true).1 = true ∧ (oneFile.copyFile b!"f" b!"./f" true).2.stat b!"f" = some (.file [])) := by
  decide +kernel

/-! ## C52 -/

/-- A file that cannot be opened: with an error code, an empty text and the error set; without one, an exception. -/
theorem C52_missing (fs : Fs) (p : Str) (h : fs.stat p = none) (ec : ErrorCode) :
    (∃ e, fs.loadString p (some ec) = (.ok [], some e) ∧ e.code ≠ 0) ∧ fs.loadString p none = (.throws .flutError, none) ∧
    (∃ e, fs.loadProp p (some ec) = (.ok PN.nil, some e) ∧ e.code ≠ 0) ∧ fs.loadProp p none = (.throws .flutError, none) ∧
    fs.loadIniFile p = .throws .flutError := by
  have hr : fs.openRead p = none := by
    cases ho : fs.openRead p with
    | none => rfl
    | some l =>
      have := (openRead_some ho).2.2.1
      rw [h] at this
      cases this
  have h1 : fs.loadString p (some ec) = (.ok [], some ⟨-1, b!"Could not open " ++ p⟩) := by unfold loadString; rw [hr]
  have h2 : fs.loadString p none = (.throws .flutError, none) := by unfold loadString; rw [hr]
  have h0 : (-1 : Int) ≠ 0 := by decide
  refine ⟨⟨_, h1, h0⟩, h2, ⟨⟨-1, b!"Could not open " ++ p⟩, ?_, h0⟩, ?_, ?_⟩
  · unfold loadProp
    rw [h1]
    simp
  · unfold loadProp
    rw [h2]
  · unfold loadIniFile
    rw [h2]
    rfl

example : oneFile.stat b!"g" = none := by decide +kernel

theorem openRead_of_stat {fs : Fs} {p : Str} {n : FsNode} (h : fs.stat p = some n) :
    ∃ l, fs.locate (cstr p) = some l ∧ fs.node l = some n ∧ (fs.readable l = true → fs.openRead p = some l) := by
  have h' := h
  unfold stat at h
  cases hl : fs.locate (cstr p) with
  | none => rw [hl] at h; cases h
  | some l =>
    rw [hl] at h
    dsimp only at h
    split at h
    · cases h
    · refine ⟨l, rfl, h, ?_⟩
      intro hr
      unfold openRead
      rw [hl]
      dsimp only
      rw [if_pos ⟨by rw [h']; rfl, hr⟩]

/-- A readable file yields exactly its content and leaves the error code alone; `load_prop` parses that content, if no error
was recorded before. -/
theorem C52_present_partial (fs : Fs) (p content : Str) (l : Loc) (h : fs.stat p = some (.file content))
    (hl : fs.locate (cstr p) = some l) (hr : fs.readable l = true) (ec : Option ErrorCode) :
    fs.loadString p ec = (.ok content, ec) ∧
    ((∀ e ∈ ec, e.code = 0) → fs.loadProp p ec = (parseProp content, ec)) ∧
    fs.loadIniFile p = loadIni content := by
  obtain ⟨l', h1, h2, h3⟩ := openRead_of_stat h
  rw [hl] at h1
  simp only [Option.some.injEq] at h1
  subst h1
  have ho := h3 hr
  have hs : ∀ ec, fs.loadString p ec = (.ok content, ec) := by
    intro ec
    unfold loadString
    rw [ho]
    simp only [readAll, h2]
  refine ⟨hs ec, ?_, ?_⟩
  · intro he
    unfold loadProp
    rw [hs ec]
    dsimp only
    rw [if_neg]
    cases ec with
    | none => simp
    | some e => simp [he e rfl]
  · unfold loadIniFile
    rw [hs none]
    rfl

example : oneFile.stat b!"f" = some (.file b!"data") ∧ oneFile.locate (cstr b!"f") = some [b!"f"] ∧
    oneFile.loadString b!"f" (some {}) = (.ok b!"data", some {}) := by decide +kernel

/-- An error recorded earlier makes `load_prop` return an empty node for a good file. -/
theorem C52_stale_error_refuted (fs : Fs) (p content : Str) (l : Loc) (h : fs.stat p = some (.file content))
    (hl : fs.locate (cstr p) = some l) (hr : fs.readable l = true) (ec : ErrorCode) (he : ec.code ≠ 0) :
    fs.loadProp p (some ec) = (.ok PN.nil, some ec) := by
  unfold loadProp
  rw [(C52_present_partial fs p content l h hl hr (some ec)).1]
  simp [he]

example : ((Fs.empty.put [b!"f"] (.file b!"a = 1")).loadProp b!"f" (some ⟨-1, []⟩)).1 = .ok PN.nil :=
  congrArg Prod.fst (C52_stale_error_refuted _ b!"f" b!"a = 1" [b!"f"] (by decide +kernel) (by decide +kernel) rfl ⟨-1, []⟩ (by decide))

/-- A folder counts as a file that exists and is empty. -/
theorem C52_folder (fs : Fs) (p : Str) (l : Loc) (h : fs.stat p = some .folder) (hl : fs.locate (cstr p) = some l)
    (hr : fs.readable l = true) (ec : Option ErrorCode) : fs.fileExists p = true ∧ fs.loadString p ec = (.ok [], ec) := by
  obtain ⟨l', h1, h2, h3⟩ := openRead_of_stat h
  rw [hl] at h1
  simp only [Option.some.injEq] at h1
  subst h1
  have ho := h3 hr
  refine ⟨by unfold fileExists; rw [ho]; rfl, ?_⟩
  unfold loadString
  rw [ho]
  simp only [readAll, h2]

example : Fs.empty.stat b!"/" = some .folder ∧ Fs.empty.locate (cstr b!"/") = some [] := by decide +kernel

/-- A printable tree that is saved to a file is loaded back from it. -/
theorem C52_save_load (fs : Fs) (p : Str) (n : PN) (l : Loc) (hl : fs.locate (cstr p) = some l)
    (h : (fs.saveProp n p true).1 = true) (hr : fs.readable l = true) (hv : n.value = [])
    (hk : ∀ kn ∈ n.children, PrintableKey kn.1) (hn : ∀ kn ∈ n.children, PrintableTree kn.2) :
    ∃ r, ((fs.saveProp n p true).2.loadProp p none) = (.ok r, none) ∧ SameTree r n := by
  unfold saveProp at h ⊢
  split at h
  · cases h
  · rename_i l' fs1 hw
    dsimp only
    obtain ⟨h1, h2, h3, h4, h5⟩ := openWrite_some hw
    rw [hl] at h1
    simp only [Option.some.injEq] at h1
    subst h1
    obtain ⟨r, hr1, hr2⟩ := C17_round_trip n hv hk hn
    refine ⟨r, ?_, hr2⟩
    rw [h2, put_put]
    rw [(C52_present_partial (fs.put l (.file (savedProp true n))) p (savedProp true n) l (stat_put_file h4 hl h3)
      (by rw [locate_put_file h4]; exact hl) hr none).2.1 (by simp), hr1]

example : (Fs.empty.saveProp (.mk false [] [(b!"a", .mk false b!"1" [])]) b!"x.prop" true).1 = true ∧
    (Fs.empty.saveProp (.mk false [] [(b!"a", .mk false b!"1" [])]) b!"x.prop" true).2.stat b!"x.prop" =
      some (.file b!"a = 1\n") := by decide +kernel

end Flut
