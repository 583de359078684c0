import Verif.Model.CurrentFolder
import Verif.Model.Xml
import Verif.Spec.FileSystem
import Verif.Proofs.FileSystem
import Verif.Props.Path

/-!
# Property theorems for the current folder: C144
-/

namespace Flut.Fs

/-- The name of a file or folder, as the operating system has it. -/
def OsName (w : Str) : Prop := w ≠ [] ∧ (∀ c ∈ w, c ≠ 0 ∧ c ≠ 47) ∧ w ≠ b!"." ∧ w ≠ b!".."

instance (w : Str) : Decidable (OsName w) := inferInstanceAs (Decidable (_ ∧ _))

/-- The names in a path. -/
def names (s : Str) : List Str := (splitSlash s).filter (· ≠ [])

theorem splitSlash_append (p q : Str) : splitSlash (p ++ 47 :: q) = splitSlash p ++ splitSlash q := by
  induction p with
  | nil =>
    cases h : splitSlash q with
    | nil => exact absurd h (splitSlash_ne_nil q)
    | cons w ws => simp [splitSlash, h]
  | cons c p ih =>
    cases h : splitSlash p with
    | nil => exact absurd h (splitSlash_ne_nil p)
    | cons w ws =>
      rw [h] at ih
      rw [List.cons_append]
      simp only [splitSlash, h, ih, List.cons_append]
      split <;> rfl

theorem names_append (p q : Str) : names (p ++ 47 :: q) = names p ++ names q := by
  simp only [names, splitSlash_append, List.filter_append]

theorem names_ends (p : Str) : names (p ++ [47]) = names p := by
  rw [names_append]; simp [names, splitSlash]

theorem names_join {p q : Str} (hp : p ≠ []) (h : p.getLast? ≠ some 92) : names (join p q) = names p ++ names q := by
  obtain ⟨a, c, rfl⟩ : ∃ a c, p = a ++ [c] := ⟨p.dropLast, p.getLast hp, (List.dropLast_concat_getLast hp).symm⟩
  unfold join
  by_cases hf : hasFilename (a ++ [c]) = true
  · rw [if_pos hf, List.append_assoc]
    exact names_append _ _
  · rw [if_neg hf]
    have hc : c = 47 := by
      by_cases h1 : c = 47
      · exact h1
      · refine absurd ((hasFilename_iff _).2 ⟨a, c, rfl, ?_⟩) hf
        have h2 : c ≠ 92 := by simpa using h
        simp [Spec.IsSep, h1, h2]
    subst hc
    rw [names_ends, List.append_assoc]
    exact names_append _ _

theorem names_mem {s : Str} : ∀ w ∈ names s, w ≠ [] ∧ ∀ c ∈ w, c ∈ s ∧ c ≠ 47 := by
  have key : ∀ s : Str, ∀ w ∈ splitSlash s, ∀ c ∈ w, c ∈ s ∧ c ≠ 47 := by
    intro s
    induction s with
    | nil => simp [splitSlash]
    | cons b s ih =>
      cases h : splitSlash s with
      | nil => exact absurd h (splitSlash_ne_nil s)
      | cons v vs =>
        rw [h] at ih
        simp only [splitSlash, h]
        intro w hw c hc
        split at hw
        · rcases List.mem_cons.1 hw with rfl | hw
          · cases hc
          · exact ⟨List.mem_cons_of_mem _ (ih w hw c hc).1, (ih w hw c hc).2⟩
        · rename_i hb
          rcases List.mem_cons.1 hw with rfl | hw
          · rcases List.mem_cons.1 hc with rfl | hc
            · exact ⟨List.mem_cons_self .., hb⟩
            · exact ⟨List.mem_cons_of_mem _ (ih v (List.mem_cons_self ..) c hc).1, (ih v (List.mem_cons_self ..) c hc).2⟩
          · exact ⟨List.mem_cons_of_mem _ (ih w (List.mem_cons_of_mem _ hw) c hc).1, (ih w (List.mem_cons_of_mem _ hw) c hc).2⟩
  intro w hw
  simp only [names, List.mem_filter, decide_eq_true_eq] at hw
  exact ⟨hw.2, key s w hw.1⟩

theorem walk_append (fs : Fs) (a b : List Str) : ∀ l, fs.walk l (a ++ b) = (fs.walk l a).bind fun m => fs.walk m b := by
  induction a with
  | nil => intro l; rfl
  | cons n a ih =>
    intro l
    simp only [List.cons_append, walk]
    cases fs.step l n with
    | none => rfl
    | some m => exact ih m

theorem walk_cwd (fs : Fs) (c : Loc) (ns : List Str) : ∀ l, ({ fs with cwd := c } : Fs).walk l ns = fs.walk l ns := by
  induction ns with
  | nil => intro l; rfl
  | cons n ns ih =>
    intro l
    simp only [walk, step]
    split
    · split
      · exact ih _
      · split
        · exact ih _
        · exact ih _
    · rfl

theorem walk_names {fs : Fs} {ns : List Str} (hn : ∀ w ∈ ns, w ≠ [] ∧ ∀ c ∈ w, c ≠ 0 ∧ c ≠ 47) :
    ∀ {l r : Loc}, (∀ w ∈ l, OsName w) → fs.walk l ns = some r → ∀ w ∈ r, OsName w := by
  induction ns with
  | nil => intro l r hl h; injection h with h; subst h; exact hl
  | cons n ns ih =>
    intro l r hl h
    simp only [walk, step] at h
    have hn' := fun w hw => hn w (List.mem_cons_of_mem _ hw)
    split at h
    · split at h
      · exact ih hn' hl h
      · split at h
        · exact ih hn' (fun w hw => hl w (List.dropLast_subset _ hw)) h
        · rename_i h1 h2
          refine ih hn' ?_ h
          intro w hw
          rcases List.mem_append.1 hw with hw | hw
          · exact hl w hw
          · rw [List.mem_singleton.1 hw]
            exact ⟨(hn n (List.mem_cons_self ..)).1, (hn n (List.mem_cons_self ..)).2, h1, h2⟩
    · cases h

theorem cstr_id {s : Str} (h : ∀ c ∈ s, c ≠ 0) : cstr s = s := by
  induction s with
  | nil => rfl
  | cons c s ih =>
    have hc : (c != 0) = true := by simpa using h c (List.mem_cons_self ..)
    have := ih fun c hc => h c (List.mem_cons_of_mem _ hc)
    unfold cstr at this ⊢
    rw [List.takeWhile_cons, if_pos hc, this]

theorem cstr_mem (s : Str) : ∀ c ∈ cstr s, c ≠ 0 := by
  induction s with
  | nil => simp [cstr]
  | cons c s ih =>
    unfold cstr at ih ⊢
    rw [List.takeWhile_cons]
    intro b hb
    by_cases hc : (c != 0) = true
    · rw [if_pos hc] at hb
      rcases List.mem_cons.1 hb with rfl | hb
      · simpa using hc
      · exact ih b hb
    · rw [if_neg hc] at hb
      cases hb

/-- The location of a name, from its beginning and its names. -/
theorem locate_eq {fs : Fs} {p : Str} (hp : p ≠ []) :
    fs.locate p = fs.walk (if p.head? = some 47 then [] else fs.cwd) (names p) := by
  unfold locate; rw [if_neg hp]; rfl

theorem folder_located {fs : Fs} {p : Str} (h : fs.folderExists p = true) :
    ∃ l, fs.locate (cstr p) = some l ∧ fs.node l = some .folder ∧ fs.setCurrentPath p = { fs with cwd := l } := by
  unfold folderExists at h
  simp only [decide_eq_true_eq] at h
  have h' := h
  unfold stat at h
  cases hl : fs.locate (cstr p) with
  | none => rw [hl] at h; cases h
  | some l =>
    rw [hl] at h
    refine ⟨l, rfl, ?_, ?_⟩
    · by_cases hc : (cstr p).getLast? = some 47 ∧ fs.node l ≠ some .folder
      · simp only [if_pos hc] at h; cases h
      · simpa only [if_neg hc] using h
    · unfold setCurrentPath chdir
      rw [hl]
      simp only [if_pos h']

theorem join_head {p q : Str} (hp : p ≠ []) : (join p q).head? = p.head? := by
  cases p with
  | nil => exact absurd rfl hp
  | cons c p => unfold join; split <;> rfl

theorem join_last {p q : Str} (hq : q ≠ []) : (join p q).getLast? = q.getLast? := by
  unfold join
  obtain ⟨a, c, rfl⟩ : ∃ a c, q = a ++ [c] := ⟨q.dropLast, q.getLast hq, (List.dropLast_concat_getLast hq).symm⟩
  split <;> simp [← List.append_assoc]

theorem join_nul {p q : Str} (hp : ∀ c ∈ p, c ≠ 0) (hq : ∀ c ∈ q, c ≠ 0) : ∀ c ∈ join p q, c ≠ 0 := by
  intro c hc
  unfold join at hc
  split at hc
  · simp only [List.mem_append, List.mem_singleton] at hc
    rcases hc with (hc | rfl) | hc
    · exact hp c hc
    · decide
    · exact hq c hc
  · rcases List.mem_append.1 hc with hc | hc
    · exact hp c hc
    · exact hq c hc

/-- A relative name is not empty, does not begin with a slash and has no NUL. -/
def Relative (q : Str) : Prop := q ≠ [] ∧ q.head? ≠ some 47 ∧ ∀ c ∈ q, c ≠ 0

instance (q : Str) : Decidable (Relative q) := inferInstanceAs (Decidable (_ ∧ _))

/-- The name of a folder to which `/` can append: not empty, no NUL, and the last character no backslash. -/
def FolderName (p : Str) : Prop := p ≠ [] ∧ (∀ c ∈ p, c ≠ 0) ∧ p.getLast? ≠ some 92

instance (p : Str) : Decidable (FolderName p) := inferInstanceAs (Decidable (_ ∧ _))

theorem locate_join {fs : Fs} {p q : Str} (hf : fs.folderExists p = true) (hp : FolderName p) (hq : Relative q) :
    (fs.setCurrentPath p).locate q = fs.locate (join p q) := by
  obtain ⟨l, h1, h2, h3⟩ := folder_located hf
  rw [cstr_id hp.2.1] at h1
  have hj : join p q ≠ [] := by
    intro h
    have h0 := join_head (q := q) hp.1
    rw [h] at h0
    cases hp' : p with
    | nil => exact hp.1 hp'
    | cons c p => rw [hp'] at h0; cases h0
  rw [h3, locate_eq hq.1, if_neg hq.2.1, walk_cwd, locate_eq hj, names_join hp.1 hp.2.2, join_head hp.1, walk_append]
  rw [locate_eq hp.1] at h1
  rw [h1]
  rfl

theorem stat_join {fs : Fs} {p q : Str} (hf : fs.folderExists p = true) (hp : FolderName p) (hq : Relative q) :
    (fs.setCurrentPath p).stat q = fs.stat (join p q) := by
  obtain ⟨l, h1, h2, h3⟩ := folder_located hf
  unfold stat
  rw [cstr_id hq.2.2, cstr_id (join_nul hp.2.1 hq.2.2), locate_join hf hp hq, join_last hq.1, h3]

theorem openRead_join {fs : Fs} {p q : Str} (hf : fs.folderExists p = true) (hp : FolderName p) (hq : Relative q) :
    (fs.setCurrentPath p).openRead q = fs.openRead (join p q) := by
  obtain ⟨l, h1, h2, h3⟩ := folder_located hf
  unfold openRead
  rw [stat_join hf hp hq, cstr_id hq.2.2, cstr_id (join_nul hp.2.1 hq.2.2), locate_join hf hp hq, h3]

theorem openWrite_join {fs : Fs} {p q : Str} (hf : fs.folderExists p = true) (hp : FolderName p) (hq : Relative q) :
    (fs.setCurrentPath p).openWrite q =
      (fs.openWrite (join p q)).map fun r => (r.1, { r.2 with cwd := (fs.setCurrentPath p).cwd }) := by
  obtain ⟨l, h1, h2, h3⟩ := folder_located hf
  unfold openWrite
  rw [cstr_id hq.2.2, cstr_id (join_nul hp.2.1 hq.2.2), locate_join hf hp hq, h3, join_last hq.1]
  cases fs.locate (join p q) with
  | none => rfl
  | some m =>
    dsimp only
    split <;> rfl

theorem readAll_cwd (fs : Fs) (c l : Loc) : ({ fs with cwd := c } : Fs).readAll l = fs.readAll l := rfl

/-- After `current_path( p )` of a folder, a relative name `q` stands for what `p / q` stood for before: the same files and
folders exist under it, loading it gives the same text or the same exception, saving and copying have the same effect on the
same files. -/
theorem C144_relative (fs : Fs) (p q : Str) (hf : fs.folderExists p = true) (hp : FolderName p) (hq : Relative q) :
    (fs.setCurrentPath p).fileExists q = fs.fileExists (join p q) ∧
    (fs.setCurrentPath p).folderExists q = fs.folderExists (join p q) ∧
    (fs.setCurrentPath p).loadString q none = fs.loadString (join p q) none ∧
    (∀ n readable, (fs.setCurrentPath p).saveProp n q readable =
      ((fs.saveProp n (join p q) readable).1, { (fs.saveProp n (join p q) readable).2 with cwd := (fs.setCurrentPath p).cwd })) ∧
    (∀ q' o, Relative q' → (fs.setCurrentPath p).copyFile q q' o =
      ((fs.copyFile (join p q) (join p q') o).1,
        { (fs.copyFile (join p q) (join p q') o).2 with cwd := (fs.setCurrentPath p).cwd })) ∧
    (fs.setCurrentPath p).mkdir q = ((fs.mkdir (join p q)).1, { (fs.mkdir (join p q)).2 with cwd := (fs.setCurrentPath p).cwd }) ∧
    (fs.folderExists (join p q) = true → (fs.setCurrentPath p).setCurrentPath q = fs.setCurrentPath (join p q)) := by
  obtain ⟨l, h1, h2, h3⟩ := folder_located hf
  have hr := openRead_join hf hp hq
  refine ⟨?_, ?_, ?_, ?_, ?_, ?_, ?_⟩
  · simp only [fileExists, hr]
  · simp only [folderExists, stat_join hf hp hq]
  · simp only [loadString, hr]
    cases fs.openRead (join p q) with
    | none => rfl
    | some m => simp only [h3]; rfl
  · intro n readable
    simp only [saveProp, openWrite_join hf hp hq]
    cases fs.openWrite (join p q) with
    | none => simp only [Option.map_none, h3]
    | some m => rfl
  · intro q' o hq'
    have he : (fs.setCurrentPath p).fileExists q' = fs.fileExists (join p q') := by
      simp only [fileExists, openRead_join hf hp hq']
    by_cases hc : (o || !fs.fileExists (join p q')) = true
    · unfold copyFile
      rw [he, if_pos hc, if_pos hc, hr, openWrite_join hf hp hq']
      cases fs.openWrite (join p q') with
      | none => simp only [Option.map_none, h3]
      | some m => cases fs.openRead (join p q) <;> rfl
    · unfold copyFile
      rw [he, if_neg hc, if_neg hc, h3]
  · unfold mkdir
    rw [cstr_id hq.2.2, cstr_id (join_nul hp.2.1 hq.2.2), locate_join hf hp hq, h3]
    cases fs.locate (join p q) with
    | none => rfl
    | some m => dsimp only; split <;> rfl
  · intro hj
    have hj' : (fs.setCurrentPath p).folderExists q = true := by
      simpa only [folderExists, stat_join hf hp hq] using hj
    obtain ⟨m, e1, _, e3⟩ := folder_located hj
    obtain ⟨m', g1, _, g3⟩ := folder_located hj'
    rw [cstr_id (join_nul hp.2.1 hq.2.2)] at e1
    rw [cstr_id hq.2.2, locate_join hf hp hq, e1] at g1
    injection g1 with g1
    subst g1
    rw [e3, g3, h3]
example : let fs := (empty.put [b!"d"] .folder).put [b!"d", b!"f"] (.file b!"text")
    fs.folderExists b!"d" = true ∧ FolderName b!"d" ∧ Relative b!"f" ∧
    ((fs.setCurrentPath b!"d").loadString b!"f" none).1 = .ok b!"text" ∧ (fs.loadString b!"f" none).1 = .throws .flutError := by
  refine ⟨by decide +kernel, by decide, by decide, by decide +kernel, by decide +kernel⟩

/-- Absolute names do not depend on the current folder. -/
theorem C144_absolute (fs : Fs) (p q : Str) (hq : q.head? = some 47) (h0 : ∀ c ∈ q, c ≠ 0) :
    (fs.setCurrentPath p).stat q = fs.stat q ∧ (fs.setCurrentPath p).openRead q = fs.openRead q ∧
    (fs.setCurrentPath p).loadString q = fs.loadString q ∧
    (fs.setCurrentPath p).openWrite q = (fs.openWrite q).map fun r => (r.1, { r.2 with cwd := (fs.setCurrentPath p).cwd }) := by
  by_cases hf : fs.folderExists p = true
  · obtain ⟨l, _, _, h3⟩ := folder_located hf
    have hne : q ≠ [] := by rintro rfl; cases hq
    have hl : (fs.setCurrentPath p).locate q = fs.locate q := by
      rw [h3, locate_eq hne, locate_eq hne, if_pos hq, if_pos hq, walk_cwd]
    have hs : (fs.setCurrentPath p).stat q = fs.stat q := by
      unfold stat
      rw [cstr_id h0, hl, h3]
    have ho : (fs.setCurrentPath p).openRead q = fs.openRead q := by
      unfold openRead
      rw [hs, cstr_id h0, hl, h3]
    refine ⟨hs, ho, ?_, ?_⟩
    · funext ec
      simp only [loadString, ho]
      cases fs.openRead q with
      | none => rfl
      | some m => simp only [h3]; rfl
    · unfold openWrite
      rw [cstr_id h0, hl, h3]
      cases fs.locate q with
      | none => rfl
      | some m => dsimp only; split <;> rfl
  · have h3 : fs.setCurrentPath p = fs := by
      unfold setCurrentPath chdir
      cases fs.locate (cstr p) with
      | none => rfl
      | some l =>
        have : ¬ fs.stat p = some .folder := by simpa [folderExists] using hf
        simp only [if_neg this]
    rw [h3]
    refine ⟨rfl, rfl, rfl, ?_⟩
    cases h : fs.openWrite q with
    | none => rfl
    | some r =>
      unfold openWrite at h
      cases hl : fs.locate (cstr q) with
      | none => rw [hl] at h; cases h
      | some m =>
        rw [hl] at h
        dsimp only at h
        split at h
        · cases h
        · injection h with h
          subst h
          rfl

theorem setCurrentPath_missing {fs : Fs} {p : Str} (hf : ¬ fs.folderExists p = true) : fs.setCurrentPath p = fs := by
  unfold setCurrentPath chdir
  cases fs.locate (cstr p) with
  | none => rfl
  | some l =>
    have : ¬ fs.stat p = some .folder := by simpa [folderExists] using hf
    simp only [if_neg this]

theorem setCurrentPath_keeps (fs : Fs) (p : Str) (hc : fs.node fs.cwd = some .folder) (hn : ∀ w ∈ fs.cwd, OsName w) :
    (fs.setCurrentPath p).node = fs.node ∧ (fs.setCurrentPath p).readable = fs.readable ∧
    (fs.setCurrentPath p).writable = fs.writable ∧ fs.node (fs.setCurrentPath p).cwd = some .folder ∧
    ∀ w ∈ (fs.setCurrentPath p).cwd, OsName w := by
  by_cases hf : fs.folderExists p = true
  · obtain ⟨l, h1, h2, h3⟩ := folder_located hf
    rw [h3]
    refine ⟨rfl, rfl, rfl, h2, ?_⟩
    have hne : cstr p ≠ [] := by
      intro h
      rw [h] at h1
      cases h1
    rw [locate_eq hne] at h1
    refine walk_names (fun w hw => ⟨(names_mem w hw).1, fun c hc => ⟨cstr_mem p c ((names_mem w hw).2 c hc).1, ((names_mem w hw).2 c hc).2⟩⟩) ?_ h1
    split
    · simp
    · exact hn
  · rw [setCurrentPath_missing hf]
    exact ⟨rfl, rfl, rfl, hc, hn⟩

theorem names_intercalate (ns : List Str) (h : ∀ w ∈ ns, OsName w) : names (47 :: List.intercalate [47] ns) = ns := by
  have key : ∀ ns : List Str, (∀ w ∈ ns, OsName w) → names (List.intercalate [47] ns) = ns := by
    intro ns
    induction ns with
    | nil => intro _; rfl
    | cons w ws ih =>
      intro h
      have hw := h w (List.mem_cons_self ..)
      have one : names w = [w] := by
        unfold names
        rw [splitSlash_word w fun c hc => (hw.2.1 c hc).2]
        simp [hw.1]
      cases ws with
      | nil => simpa [List.intercalate] using one
      | cons v vs =>
        have e : List.intercalate [47] (w :: v :: vs) = w ++ 47 :: List.intercalate [47] (v :: vs) := by
          simp [List.intercalate, List.intersperse]
        rw [e, names_append, one, ih fun w hw => h w (List.mem_cons_of_mem _ hw)]
        rfl
  have := names_append [] (List.intercalate [47] ns)
  rw [List.nil_append] at this
  rw [this, key ns h]
  rfl

theorem intercalate_nul (ns : List Str) (h : ∀ w ∈ ns, OsName w) : ∀ c ∈ (47 : Byte) :: List.intercalate [47] ns, c ≠ 0 := by
  intro c hc
  rcases List.mem_cons.1 hc with rfl | hc
  · decide
  · induction ns with
    | nil => simp [List.intercalate] at hc
    | cons w ws ih =>
      cases ws with
      | nil =>
        have hc : c ∈ w := by simpa [List.intercalate] using hc
        exact ((h w (List.mem_cons_self ..)).2.1 c hc).1
      | cons v vs =>
        have e : List.intercalate [47] (w :: v :: vs) = w ++ 47 :: List.intercalate [47] (v :: vs) := by
          simp [List.intercalate, List.intersperse]
        rw [e] at hc
        rcases List.mem_append.1 hc with hc | hc
        · exact ((h w (List.mem_cons_self ..)).2.1 c hc).1
        · rcases List.mem_cons.1 hc with rfl | hc
          · decide
          · exact ih (fun w hw => h w (List.mem_cons_of_mem _ hw)) (List.mem_cons_of_mem _ hc) hc

theorem walk_os {fs : Fs} {ns : List Str} (hp : ∀ w ∈ ns, OsName w) : ∀ {l : Loc},
    (∀ m, m <+: ns → m ≠ ns → fs.node (l ++ m) = some .folder) → fs.walk l ns = some (l ++ ns) := by
  induction ns with
  | nil => intro l _; simp [walk]
  | cons n ns ih =>
    intro l h
    have h0 := h [] (List.nil_prefix) (by simp)
    rw [List.append_nil] at h0
    have hn := hp n (List.mem_cons_self ..)
    simp only [walk, step, if_pos h0, if_neg hn.2.2.1, if_neg hn.2.2.2, Option.bind_some]
    rw [ih (fun w hw => hp w (List.mem_cons_of_mem _ hw)) (l := l ++ [n])]
    · simp
    · intro m hm hne
      have := h (n :: m) (List.cons_prefix_cons.2 ⟨rfl, hm⟩) (by simpa using hne)
      simpa using this

/-- In a proper file system whose working directory has proper names, `current_path()` is the absolute name of the current
folder after any calls of `current_path( p )`; and passing it to `current_path` later, after any further calls, goes back there. -/
theorem C144_return (fs : Fs) (hw : WF fs) (hn : ∀ w ∈ fs.cwd, OsName w) (ps qs : List Str) :
    ∃ name, (ps.foldl setCurrentPath fs).currentPath = .ok name ∧ name.head? = some 47 ∧
      (ps.foldl setCurrentPath fs).folderExists name = true ∧
      (qs.foldl setCurrentPath (ps.foldl setCurrentPath fs)).setCurrentPath name = ps.foldl setCurrentPath fs := by
  have inv : ∀ (ps : List Str) (gs : Fs), WF gs → (∀ w ∈ gs.cwd, OsName w) →
      WF (ps.foldl setCurrentPath gs) ∧ (∀ w ∈ (ps.foldl setCurrentPath gs).cwd, OsName w) ∧
      (ps.foldl setCurrentPath gs).node = gs.node ∧ (ps.foldl setCurrentPath gs).readable = gs.readable ∧
      (ps.foldl setCurrentPath gs).writable = gs.writable := by
    intro ps
    induction ps with
    | nil => intro gs h1 h2; exact ⟨h1, h2, rfl, rfl, rfl⟩
    | cons p ps ih =>
      intro gs h1 h2
      obtain ⟨k1, k2, k3, k4, k5⟩ := setCurrentPath_keeps gs p h1.cwd h2
      have h1' : WF (gs.setCurrentPath p) := ⟨by rw [k1]; exact h1.root, by rw [k1]; exact k4, by rw [k1]; exact h1.parent⟩
      obtain ⟨r1, r2, r3, r4, r5⟩ := ih (gs.setCurrentPath p) h1' k5
      exact ⟨r1, r2, r3.trans k1, r4.trans k2, r5.trans k3⟩
  obtain ⟨w1, n1, _⟩ := inv ps fs hw hn
  generalize ps.foldl setCurrentPath fs = gs at *
  obtain ⟨w2, n2, e1, e2, e3⟩ := inv qs gs w1 n1
  generalize qs.foldl setCurrentPath gs = ks at *
  have hz := intercalate_nul gs.cwd n1
  have loc : ∀ hs : Fs, hs.node = gs.node → hs.locate (47 :: List.intercalate [47] gs.cwd) = some gs.cwd := by
    intro hs he
    rw [locate_eq (by simp), names_intercalate _ n1, List.head?_cons, if_pos rfl]
    refine walk_os n1 (l := []) ?_
    intro m hm hne
    rw [List.nil_append, he]
    obtain ⟨t, ht⟩ := hm
    refine w1.prefix_folder (m := t) ?_ ?_
    · rw [ht, w1.cwd]; simp
    · rintro rfl
      exact hne (by simpa using ht)
  have st : ∀ hs : Fs, hs.node = gs.node → hs.stat (47 :: List.intercalate [47] gs.cwd) = some .folder := by
    intro hs he
    unfold stat
    rw [cstr_id hz, loc hs he]
    dsimp only
    rw [he, w1.cwd, if_neg (fun h => h.2 rfl)]
  refine ⟨47 :: List.intercalate [47] gs.cwd, ?_, rfl, ?_, ?_⟩
  · unfold currentPath getcwd
    rw [if_pos w1.cwd]
    simp only [pathOfPointer, cstr_id hz]
  · simp only [folderExists, st gs rfl, decide_true]
  · unfold setCurrentPath chdir
    rw [cstr_id hz, loc ks e1]
    simp only [st ks e1, if_true]
    rw [e1, e2, e3]

example : let fs := (empty.put [b!"d"] .folder).put [b!"d", b!"e"] .folder
    ([b!"d", b!"missing", b!"./e/../e"].foldl setCurrentPath fs).currentPath = .ok b!"/d/e" ∧
    (([b!"..", b!".."].foldl setCurrentPath ([b!"d", b!"e"].foldl setCurrentPath fs)).currentPath) = .ok b!"/" := by
  decide +kernel

/-- If the folder does not exist, or is a file, `current_path( p )` does nothing and says nothing: names go on to stand for what
they stood for in the old folder. -/
theorem C144_missing_refuted (fs : Fs) (p : Str) (hf : fs.folderExists p = false) : fs.setCurrentPath p = fs :=
  setCurrentPath_missing (by simp [hf])

/-- So a program that goes to a folder that is missing and saves a file there overwrites the file of that name in the old folder. -/
theorem C144_overwrites_refuted : ∃ fs : Fs, WF fs ∧ fs.folderExists b!"results" = false ∧
    fs.loadString b!"config" none = (.ok b!"precious", none) ∧
    (((fs.setCurrentPath b!"results").saveProp (.mk false [] []) b!"config" true).2.loadString b!"config" none).1 = .ok [] := by
  refine ⟨empty.put [b!"config"] (.file b!"precious"), ⟨rfl, rfl, ?_⟩, by decide +kernel, by decide +kernel, by decide +kernel⟩
  intro l x h
  by_cases hl : l ++ [x] = [b!"config"]
  · have : l = [] := by
      cases l with
      | nil => rfl
      | cons a l => simp at hl
    subst this
    rfl
  · simp [put, hl, empty] at h

/-- When the current folder has been removed, `current_path()` is undefined. -/
theorem C144_removed_refuted (fs : Fs) (h : fs.node fs.cwd ≠ some .folder) : fs.currentPath = .ub := by
  unfold currentPath getcwd
  rw [if_neg h]
  rfl

/-- A folder whose name ends in a backslash cannot be joined with a file name: `a\\ / f` is one name. -/
theorem C144_backslash_refuted : ∃ fs : Fs, fs.folderExists [97, 92] = true ∧
    (fs.setCurrentPath [97, 92]).fileExists b!"f" = true ∧ fs.fileExists (join [97, 92] b!"f") = false :=
  ⟨(empty.put [[97, 92]] .folder).put [[97, 92], b!"f"] (.file []), by decide +kernel, by decide +kernel, by decide +kernel⟩

/-- `get_documents_folder` is the home folder, and undefined if the environment has none. -/
theorem C144_documents (h : Str) (h0 : ∀ c ∈ h, c ≠ 0) :
    documentsFolder (some h) = .ok h ∧ documentsFolder none = .ub := by
  refine ⟨?_, rfl⟩
  simp only [documentsFolder, pathOfPointer, cstr_id h0]

/-- `get_application_folder` is the empty name, which is no folder, wherever the program is; names joined to it stand for
files of the current folder. -/
theorem C144_application_refuted (fs : Fs) (q : Str) :
    fs.folderExists applicationFolder = false ∧ join applicationFolder q = q := by
  refine ⟨?_, rfl⟩
  rfl

/-- A file that includes another one by its absolute name loads if it is named relative to its own folder, and not if its name
has a folder: the name of the folder is put before the absolute name. -/
theorem C144_include_refuted : ∃ fs : Fs, (∃ r, fs.cwd = [b!"d"] ∧
    PN.loadWithInclude ⟨fs.loadFile, fun _ => false, b!"include"⟩ 10 100 b!"f.prop" = .ok r ∧ r.children.length = 1) ∧
    PN.loadWithInclude ⟨fs.loadFile, fun _ => false, b!"include"⟩ 10 100 b!"/d/f.prop" = .throws .flutError :=
  ⟨((((empty.put [b!"d"] .folder).put [b!"d", b!"f.prop"] (.file b!"include {\n\tfile = /e.prop\n}\n")).put [b!"e.prop"]
    (.file b!"x = 1\n")).setCurrentPath b!"d"), ⟨_, rfl, rfl, rfl⟩, rfl⟩

end Flut.Fs
