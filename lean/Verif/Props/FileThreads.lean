import Verif.Spec.FileThreads
import Verif.Props.FileSystem

/-! # Property theorems: several programs that use one file system at the same time (C163) -/

namespace Flut

open Fs

/-! ## Alone, the programs are the functions -/

theorem run_createDirs {α : Type} (n : Nat) (p : Str) (k : Bool → FsProg α) (fs : Fs) :
    (FsProg.createDirs n p k).run fs = (k (createDirsN n fs p).1).run (createDirsN n fs p).2 := by
  induction n generalizing p k fs with
  | zero => rfl
  | succ n ih =>
    unfold FsProg.createDirs createDirsN
    by_cases h : hasParentPath p = true
    · rw [if_pos h, if_pos h]
      cases hq : parentPath p with
      | ok q =>
        dsimp only
        rw [FsProg.run]
        by_cases hf : fs.folderExists q = true
        · rw [hf, if_pos rfl, if_pos rfl]; rfl
        · rw [if_neg hf, if_neg hf, ih]; rfl
      | _ => rfl
    · rw [if_neg h, if_neg h]; rfl

/-- C163. A program that has the file system for itself does what the functions do. -/
theorem C163_alone (fs : Fs) : (∀ folder n, (FsProg.uniqueFolder folder n).run fs = fs.createUniqueFolder folder n) ∧
    (∀ folder, (FsProg.directories folder).run fs =
      (if (fs.createDirectories folder).1 then .ok folder else .throws .flutError, (fs.createDirectories folder).2)) ∧
    (∀ src dst overwrite, (FsProg.copyFile src dst overwrite .ret).run fs = fs.copyFile src dst overwrite) ∧
    ∀ p, (FsProg.loadString p .ret).run fs = ((fs.loadString p none).1, fs) := by
  refine ⟨?_, ?_, ?_, ?_⟩
  · intro folder n
    show (FsProg.uniqueFrom folder n.toNat 0).run fs = uniqueLoop folder n.toNat 0 fs
    generalize n.toNat = n
    generalize 0 = i
    induction n generalizing i fs with
    | zero => rfl
    | succ n ih =>
      rw [FsProg.uniqueFrom, uniqueLoop, FsProg.run]
      by_cases hf : fs.folderExists (uniqueName folder i) = true
      · rw [if_pos hf, if_pos hf, ih]
      · rw [if_neg hf, if_neg hf, run_createDirs]
        show FsProg.run _ (fs.createDirectories (uniqueName folder i)).2 = _
        cases h : fs.createDirectories (uniqueName folder i) with
        | mk b fs' =>
          show FsProg.run (if (fs.createDirectories (uniqueName folder i)).1 then _ else _) _ = _
          rw [h]
          cases b
          · exact ih fs' (i + 1)
          · rfl
  · intro folder
    unfold FsProg.directories
    rw [run_createDirs]
    show FsProg.run (if (fs.createDirectories folder).1 then _ else _) (fs.createDirectories folder).2 = _
    cases (fs.createDirectories folder).1 <;> rfl
  · intro src dst overwrite
    have copy : FsProg.run (.openRead src fun s => .openWrite dst fun d =>
        match s, d with
        | some s, some d => .read s fun c => .write d c (.ret true)
        | _, _ => .ret false) fs = (let s := fs.openRead src
          match fs.openWrite dst with
          | none => (false, fs)
          | some (d, fs) =>
            match s with
            | none => (false, fs)
            | some l => (true, fs.put d (.file (fs.readAll l)))) := by
      rw [FsProg.run, FsProg.run]
      dsimp only
      cases fs.openWrite dst with
      | none => cases fs.openRead src <;> rfl
      | some d => cases fs.openRead src <;> rfl
    unfold FsProg.copyFile Fs.copyFile
    cases overwrite
    · rw [if_neg (by decide), FsProg.run]
      by_cases h : (fs.openRead dst).isSome = true
      · rw [if_pos h, if_neg (by simp [fileExists, h])]; rfl
      · rw [if_neg h, if_pos (by simp [fileExists, h])]; exact copy
    · rw [if_pos rfl, if_pos (by simp)]; exact copy
  · intro p
    unfold FsProg.loadString Fs.loadString
    rw [FsProg.run]
    cases fs.openRead p <;> rfl

/-! ## What is never removed -/

/-- Folders stay folders, and nothing is removed. -/
structure Keeps (a b : Fs) : Prop where
  folder : ∀ l, a.node l = some .folder → b.node l = some .folder
  exists_ : ∀ l, a.node l ≠ none → b.node l ≠ none
  writable : b.writable = a.writable

theorem Keeps.refl (a : Fs) : Keeps a a := ⟨fun _ h => h, fun _ h => h, rfl⟩

theorem Keeps.trans {a b c : Fs} (h : Keeps a b) (h' : Keeps b c) : Keeps a c :=
  ⟨fun l hl => h'.folder l (h.folder l hl), fun l hl => h'.exists_ l (h.exists_ l hl), h'.writable.trans h.writable⟩

theorem walk_keeps {a b : Fs} (h : Keeps a b) (ns : List Str) : ∀ {l r : Loc}, a.walk l ns = some r → b.walk l ns = some r := by
  induction ns with
  | nil => exact fun h => h
  | cons n ns ih =>
    intro l r hw
    unfold walk at hw ⊢
    unfold step at hw ⊢
    by_cases hl : a.node l = some .folder
    · rw [if_pos hl] at hw
      rw [if_pos (h.folder l hl)]
      split at hw
      · rename_i e; rw [if_pos e]; exact ih hw
      · rename_i e
        rw [if_neg e]
        split at hw
        · rename_i e; rw [if_pos e]; exact ih hw
        · rename_i e; rw [if_neg e]; exact ih hw
    · rw [if_neg hl] at hw; cases hw

theorem locate_keeps {a b : Fs} (h : Keeps a b) (c : Loc) {p : Str} {r : Loc} (hl : (a.within c).locate p = some r) : (b.within c).locate p = some r := by
  unfold locate at hl ⊢
  split at hl
  · cases hl
  · rename_i hp
    rw [if_neg hp]
    exact walk_keeps (a := a.within c) (b := b.within c) ⟨h.folder, h.exists_, h.writable⟩ _ hl

theorem mkdir_keeps (fs : Fs) (c c' : Loc) (p : Str) : Keeps fs (((fs.within c).mkdir p).2.within c') := by
  have h := mkdir_addsFolders (fs.within c) p
  refine ⟨fun l hl => h.keeps (a := fs.within c) hl, fun l hl => ?_, h.writable⟩
  rcases h.node l with e | ⟨e, _⟩
  · rw [show (((fs.within c).mkdir p).2.within c').node l = ((fs.within c).mkdir p).2.node l from rfl, e]; exact hl
  · exact absurd e hl

/-! ## Programs that make folders -/

/-- A program that makes folders and ends with the name of a folder only right after making it. -/
inductive Maker (N : Str → Prop) : FsProg (Res Str) → Prop
  | throws (e : Exn) : Maker N (.ret (.throws e))
  | folderExists {p : Str} {k : Bool → FsProg (Res Str)} (h : ∀ b, Maker N (k b)) : Maker N (.folderExists p k)
  | mkdir {p : Str} {k : Bool → FsProg (Res Str)} (h : ∀ b, Maker N (k b)) : Maker N (.mkdir p k)
  | last {p : Str} {k : Bool → FsProg (Res Str)} (h : Maker N (k false)) (hp : N p) (hk : k true = .ret (.ok p)) : Maker N (.mkdir p k)

theorem maker_mkdir {N : Str → Prop} {p : Str} {k : Bool → FsProg (Res Str)} (hf : Maker N (k false))
    (ht : (N p ∧ k true = .ret (.ok p)) ∨ Maker N (k true)) : Maker N (.mkdir p k) := by
  rcases ht with ⟨h1, h2⟩ | h
  · exact .last hf h1 h2
  · exact .mkdir fun b => by cases b; exacts [hf, h]

theorem maker_createDirs {N : Str → Prop} (n : Nat) (p : Str) (k : Bool → FsProg (Res Str)) (hf : Maker N (k false))
    (ht : (N p ∧ k true = .ret (.ok p)) ∨ Maker N (k true)) : Maker N (.createDirs n p k) := by
  induction n generalizing p k with
  | zero => exact hf
  | succ n ih =>
    unfold FsProg.createDirs
    have m := maker_mkdir hf ht
    split
    · split
      · refine .folderExists fun b => ?_
        split
        · exact m
        · exact ih _ _ m (Or.inr m)
      · exact m
    · exact m

theorem maker_prog (c : FsCall) : Maker c.names c.prog := by
  cases c with
  | unique folder n =>
    have gen : ∀ m i : Nat, i + m ≤ n.toNat → Maker (FsCall.unique folder n).names (.uniqueFrom folder m i) := by
      intro m
      induction m with
      | zero => intro i _; exact .throws _
      | succ m ih =>
        intro i hi
        unfold FsProg.uniqueFrom
        refine .folderExists fun b => ?_
        split
        · exact ih _ (by omega)
        · exact maker_createDirs _ _ _ (ih _ (by omega)) (Or.inl ⟨⟨i, by omega, rfl⟩, rfl⟩)
    exact gen n.toNat 0 (by omega)
  | directories folder => exact maker_createDirs _ _ _ (.throws _) (Or.inl ⟨rfl, rfl⟩)

/-- What holds at every time: each program is still at work, or has made the folder it returned, and no two have made the same one. -/
structure MakersInv (fs : Fs) (calls : List (Loc × FsCall)) (t : FsSystem (Res Str)) (own : Nat → Option Loc) : Prop where
  keeps : Keeps fs t.fs
  proc : ∀ i cwd c, calls[i]? = some (cwd, c) → ∃ prog, t.procs[i]? = some ⟨cwd, prog⟩ ∧
    ((Maker c.names prog ∧ own i = none) ∨ ∃ u l, prog = .ret (.ok u) ∧ c.names u ∧ own i = some l ∧ (t.fs.within cwd).locate (cstr u) = some l)
  length : t.procs.length = calls.length
  folder : ∀ i l, own i = some l → t.fs.node l = some .folder ∧ fs.node l = none
  distinct : ∀ i j l, own i = some l → own j = some l → i = j

/-- A step of the file system that keeps everything, and a new program for one of the calls. -/
theorem MakersInv.update {fs : Fs} {calls : List (Loc × FsCall)} {t : FsSystem (Res Str)} {own : Nat → Option Loc} (h : MakersInv fs calls t own)
    {i : Nat} {cwd : Loc} {c : FsCall} (hc : calls[i]? = some (cwd, c)) (hown : own i = none) {fs' : Fs} (hk : Keeps t.fs fs') {prog : FsProg (Res Str)}
    (hp : Maker c.names prog ∨ ∃ u l, prog = .ret (.ok u) ∧ c.names u ∧ (fs'.within cwd).locate (cstr u) = some l ∧ t.fs.node l = none ∧
      fs'.node l = some .folder) :
    ∃ own', MakersInv fs calls ⟨fs', t.procs.set i ⟨cwd, prog⟩⟩ own' := by
  have hi : i < t.procs.length := by
    rw [h.length]
    exact (List.getElem?_eq_some_iff.1 hc).1
  have others : ∀ j cwd' c', j ≠ i → calls[j]? = some (cwd', c') → ∃ prog', (t.procs.set i ⟨cwd, prog⟩)[j]? = some ⟨cwd', prog'⟩ ∧
      ((Maker c'.names prog' ∧ own j = none) ∨
        ∃ u l, prog' = .ret (.ok u) ∧ c'.names u ∧ own j = some l ∧ (fs'.within cwd').locate (cstr u) = some l) := by
    intro j cwd' c' hj hc'
    obtain ⟨prog', h1, h2⟩ := h.proc j cwd' c' hc'
    refine ⟨prog', by rw [List.getElem?_set_ne (Ne.symm hj)]; exact h1, ?_⟩
    rcases h2 with h2 | ⟨u, l, a1, a2, a3, a4⟩
    · exact Or.inl h2
    · exact Or.inr ⟨u, l, a1, a2, a3, locate_keeps hk cwd' a4⟩
  rcases hp with hp | ⟨u, l, a1, a2, a3, a4, a5⟩
  · refine ⟨own, h.keeps.trans hk, ?_, by rw [List.length_set]; exact h.length, ?_, h.distinct⟩
    · intro j cwd' c' hc'
      by_cases hj : j = i
      · subst hj
        rw [hc] at hc'
        cases hc'
        exact ⟨prog, by rw [List.getElem?_set_self hi], Or.inl ⟨hp, hown⟩⟩
      · exact others j cwd' c' hj hc'
    · intro j l hl
      exact ⟨hk.folder l (h.folder j l hl).1, (h.folder j l hl).2⟩
  · have fresh : ∀ j, own j ≠ some l := by
      intro j hj
      have := (h.folder j l hj).1
      rw [a4] at this
      cases this
    have new : fs.node l = none := by
      by_contra hc
      exact h.keeps.exists_ l hc a4
    refine ⟨fun j => if j = i then some l else own j, h.keeps.trans hk, ?_, by rw [List.length_set]; exact h.length, ?_, ?_⟩
    · intro j cwd' c' hc'
      by_cases hj : j = i
      · subst hj
        rw [hc] at hc'
        cases hc'
        exact ⟨prog, by rw [List.getElem?_set_self hi], Or.inr ⟨u, l, a1, a2, by simp, a3⟩⟩
      · simp only [if_neg hj]
        exact others j cwd' c' hj hc'
    · intro j m hm
      split at hm
      · cases hm; exact ⟨a5, new⟩
      · exact ⟨hk.folder m (h.folder j m hm).1, (h.folder j m hm).2⟩
    · intro j j' m hm hm'
      split at hm <;> split at hm'
      · rename_i e e'; rw [e, e']
      · cases hm; exact absurd hm' (fresh _)
      · cases hm'; exact absurd hm (fresh _)
      · exact h.distinct j j' m hm hm'

theorem makersInv_steps (fs : Fs) (calls : List (Loc × FsCall)) (t : FsSystem (Res Str)) (h : (FsSystem.start fs calls).Steps t) :
    ∃ own, MakersInv fs calls t own := by
  generalize hs : FsSystem.start fs calls = s at h
  induction h with
  | refl =>
    subst hs
    refine ⟨fun _ => none, Keeps.refl _, ?_, by simp [FsSystem.start], by simp, by simp⟩
    intro i cwd c hc
    exact ⟨c.prog, by simp [FsSystem.start, hc], Or.inl ⟨maker_prog c, rfl⟩⟩
  | tail _ h' ih =>
    obtain ⟨own, inv⟩ := ih
    cases h' with
    | other fs' h1 h2 h3 =>
      have hk : Keeps _ fs' := ⟨h1, h2, h3⟩
      refine ⟨own, inv.keeps.trans hk, ?_, inv.length, fun i l hl => ⟨hk.folder l (inv.folder i l hl).1, (inv.folder i l hl).2⟩, inv.distinct⟩
      intro i cwd c hc
      obtain ⟨prog, a1, a2⟩ := inv.proc i cwd c hc
      refine ⟨prog, a1, ?_⟩
      rcases a2 with a2 | ⟨u, l, b1, b2, b3, b4⟩
      · exact Or.inl a2
      · exact Or.inr ⟨u, l, b1, b2, b3, locate_keeps hk cwd b4⟩
    | call i p prog' fs' hi hn =>
      rename_i t _
      have hlt : i < calls.length := by rw [← inv.length]; exact (List.getElem?_eq_some_iff.1 hi).1
      obtain ⟨⟨cwd, c⟩, hc⟩ : ∃ x, calls[i]? = some x := ⟨_, List.getElem?_eq_getElem hlt⟩
      obtain ⟨prog, a1, a2⟩ := inv.proc i cwd c hc
      rw [hi] at a1
      cases a1
      dsimp only at hn ⊢
      rcases a2 with ⟨m, ow⟩ | ⟨u, l, rfl, _⟩
      · cases m with
        | throws e => cases hn
        | folderExists h =>
          cases hn
          exact inv.update hc ow (Keeps.refl _) (Or.inl (h _))
        | mkdir h =>
          cases hn
          exact inv.update hc ow (mkdir_keeps _ _ _ _) (Or.inl (h _))
        | last h hp hk =>
          rename_i q k
          cases hn
          refine inv.update hc ow (mkdir_keeps _ _ _ _) ?_
          cases hb : ((t.fs.within cwd).mkdir q).1 with
          | false => exact Or.inl h
          | true =>
            right
            rw [hk]
            have hb2 := hb
            unfold Fs.mkdir at hb2
            cases hl : (t.fs.within cwd).locate (cstr q) with
            | none => rw [hl] at hb2; cases hb2
            | some l =>
              rw [hl] at hb2
              dsimp only at hb2
              split at hb2
              · rename_i hcond
                refine ⟨q, l, rfl, hp, ?_, hcond.1, ?_⟩
                · exact locate_keeps (mkdir_keeps t.fs cwd t.fs.cwd q) cwd hl
                · show ((t.fs.within cwd).mkdir q).2.node l = _
                  unfold Fs.mkdir
                  rw [hl]
                  dsimp only
                  rw [if_pos hcond]
                  simp [Fs.put]
              · cases hb2
      · cases hn

/-- C163. Any number of programs create folders at the same time, in any order of their calls, while other programs add files and folders: a folder that
`create_unique_folder` returns, or for which `create_directories` returns true, did not exist at the beginning, has one of the names asked for, exists, and
is not that of any other of the calls. -/
theorem C163_distinct (fs : Fs) (calls : List (Loc × FsCall)) (t : FsSystem (Res Str)) (h : (FsSystem.start fs calls).Steps t)
    (i : Nat) (cwd : Loc) (c : FsCall) (hc : calls[i]? = some (cwd, c)) (u : Str) (hu : t.procs[i]? = some ⟨cwd, .ret (.ok u)⟩) :
    c.names u ∧ ∃ l, (t.fs.within cwd).locate (cstr u) = some l ∧ t.fs.node l = some .folder ∧ fs.node l = none ∧
      ∀ (j : Nat) (q : FsProc (Res Str)) (v : Str), j ≠ i → t.procs[j]? = some q → q.prog = .ret (.ok v) →
        (t.fs.within q.cwd).locate (cstr v) ≠ some l := by
  obtain ⟨own, inv⟩ := makersInv_steps fs calls t h
  have own_of : ∀ (i : Nat) (cwd : Loc) (c : FsCall) (u : Str), calls[i]? = some (cwd, c) → t.procs[i]? = some ⟨cwd, .ret (.ok u)⟩ →
      c.names u ∧ ∃ l, own i = some l ∧ (t.fs.within cwd).locate (cstr u) = some l := by
    intro i cwd c u hc hu
    obtain ⟨prog, a1, a2⟩ := inv.proc i cwd c hc
    rw [hu] at a1
    cases a1
    rcases a2 with ⟨m, _⟩ | ⟨v, l, e, b2, b3, b4⟩
    · cases m
    · cases e
      exact ⟨b2, l, b3, b4⟩
  obtain ⟨a1, l, a2, a3⟩ := own_of i cwd c u hc hu
  refine ⟨a1, l, a3, (inv.folder i l a2).1, (inv.folder i l a2).2, ?_⟩
  intro j q v hj hq hv e
  have hlt : j < calls.length := by rw [← inv.length]; exact (List.getElem?_eq_some_iff.1 hq).1
  obtain ⟨⟨cwd', c'⟩, hc'⟩ : ∃ x, calls[j]? = some x := ⟨_, List.getElem?_eq_getElem hlt⟩
  obtain ⟨prog, b1, _⟩ := inv.proc j cwd' c' hc'
  rw [hq] at b1
  cases b1
  dsimp only at hv e
  subst hv
  obtain ⟨_, l', b2, b3⟩ := own_of j cwd' c' v hc' hq
  rw [e] at b3
  cases b3
  exact hj (inv.distinct j i l b2 a2)

/-- Programs that take turns. -/
theorem turns_steps {α : Type} (is : List Nat) (s t : FsSystem α) (h : s.turns is = some t) : s.Steps t := by
  have app : ∀ {a b c : FsSystem α}, a.Step b → b.Steps c → a.Steps c := by
    intro a b c h1 h2
    induction h2 with
    | refl => exact .tail (.refl _) h1
    | tail _ h3 ih => exact .tail ih h3
  induction is generalizing s with
  | nil => cases h; exact .refl _
  | cons i is ih =>
    unfold FsSystem.turns at h
    cases hp : s.procs[i]? with
    | none => rw [hp] at h; cases h
    | some p =>
      rw [hp] at h
      dsimp only at h
      cases hn : p.prog.next (s.fs.within p.cwd) with
      | none => rw [hn] at h; cases h
      | some r =>
        rw [hn] at h
        exact app (.call s i p r.1 r.2 hp hn) (ih _ h)

/-! ## When a unique folder is not found -/

/-- Whatever others do between the calls of a program: if it ends by throwing, then `Q` holds of the file system. -/
def ThrowsOnly (Q : Fs → Prop) (cwd : Loc) : FsProg (Res Str) → Fs → Prop
  | .ret (.throws _), fs => Q fs
  | .ret _, _ => True
  | .folderExists p k, fs => ∀ fs', Keeps fs fs' → ThrowsOnly Q cwd (k ((fs'.within cwd).folderExists p)) fs'
  | .mkdir p k, fs => ∀ fs', Keeps fs fs' → ThrowsOnly Q cwd (k ((fs'.within cwd).mkdir p).1) (((fs'.within cwd).mkdir p).2.within fs'.cwd)
  | _, _ => False

theorem ThrowsOnly.keeps {Q : Fs → Prop} (hQ : ∀ a b, Keeps a b → Q a → Q b) {cwd : Loc} {prog : FsProg (Res Str)} {a b : Fs} (hk : Keeps a b)
    (h : ThrowsOnly Q cwd prog a) : ThrowsOnly Q cwd prog b := by
  cases prog with
  | ret r =>
    cases r with
    | throws e => exact hQ a b hk h
    | _ => trivial
  | folderExists p k => exact fun fs' h' => h fs' (hk.trans h')
  | mkdir p k => exact fun fs' h' => h fs' (hk.trans h')
  | _ => exact h

/-- A program keeps this while it runs with others. -/
theorem throwsOnly_steps {Q : Fs → Prop} (hQ : ∀ a b, Keeps a b → Q a → Q b) (fs : Fs) (calls : List (Loc × FsCall)) (i : Nat) (cwd : Loc) (c : FsCall)
    (hc : calls[i]? = some (cwd, c)) (h0 : ThrowsOnly Q cwd c.prog fs) (t : FsSystem (Res Str)) (h : (FsSystem.start fs calls).Steps t) :
    ∃ prog, t.procs[i]? = some ⟨cwd, prog⟩ ∧ ThrowsOnly Q cwd prog t.fs := by
  have all : ∀ s t : FsSystem (Res Str), s = FsSystem.start fs calls → s.Steps t → ∃ prog, t.procs[i]? = some ⟨cwd, prog⟩ ∧ ThrowsOnly Q cwd prog t.fs := by
    intro s t hs h
    induction h with
    | refl => subst hs; exact ⟨c.prog, by simp [FsSystem.start, hc], h0⟩
    | tail hst h' ih =>
      subst hs
      obtain ⟨prog, a1, a2⟩ := ih
      cases h' with
      | other fs' h1 h2 h3 => exact ⟨prog, a1, a2.keeps hQ ⟨h1, h2, h3⟩⟩
      | call j p prog' fs' hj hn =>
        rename_i t
        obtain ⟨own, inv⟩ := makersInv_steps fs calls t hst
        have hlt : j < calls.length := by rw [← inv.length]; exact (List.getElem?_eq_some_iff.1 hj).1
        obtain ⟨⟨cwd', c'⟩, hc'⟩ : ∃ x, calls[j]? = some x := ⟨_, List.getElem?_eq_getElem hlt⟩
        obtain ⟨progj, b1, b2⟩ := inv.proc j cwd' c' hc'
        rw [hj] at b1
        cases b1
        dsimp only at hn ⊢
        by_cases e : j = i
        · subst e
          rw [a1] at hj
          cases hj
          refine ⟨prog', List.getElem?_set_self (List.getElem?_eq_some_iff.1 a1).1, ?_⟩
          rcases b2 with ⟨m, _⟩ | ⟨u, l, rfl, _⟩
          · cases m with
            | throws e => cases hn
            | folderExists _ => cases hn; exact a2 _ (Keeps.refl _)
            | mkdir _ => cases hn; exact a2 _ (Keeps.refl _)
            | last _ _ _ => cases hn; exact a2 _ (Keeps.refl _)
          · cases hn
        · refine ⟨prog, by rw [List.getElem?_set_ne e]; exact a1, a2.keeps hQ ?_⟩
          rcases b2 with ⟨m, _⟩ | ⟨u, l, rfl, _⟩
          · cases m with
            | throws e => cases hn
            | folderExists _ => cases hn; exact Keeps.refl _
            | mkdir _ => cases hn; exact mkdir_keeps _ _ _ _
            | last _ _ _ => cases hn; exact mkdir_keeps _ _ _ _
          · cases hn
  exact all _ t rfl h

theorem throwsOnly_mkdir {Q : Fs → Prop} {cwd : Loc} {p : Str} {k : Bool → FsProg (Res Str)} {fs : Fs} (ht : ∀ fs', Keeps fs fs' → ThrowsOnly Q cwd (k true) fs')
    (hf : ∀ fs', Keeps fs fs' → ((fs'.within cwd).mkdir p).1 = false → ThrowsOnly Q cwd (k false) (((fs'.within cwd).mkdir p).2.within fs'.cwd)) :
    ThrowsOnly Q cwd (.mkdir p k) fs := by
  intro fs' hk
  cases hb : ((fs'.within cwd).mkdir p).1 with
  | true => exact ht _ (hk.trans (mkdir_keeps _ _ _ _))
  | false => exact hf fs' hk hb

/-- The parent folders of a path are there. -/
def ParentsThere (ab : Bool) (cwd : Loc) (ms : List Str) (fs : Fs) : Prop := ∀ m, m <+: ms → fs.node ((fs.within cwd).base ab ++ m) = some .folder

theorem base_within (a b : Fs) (ab : Bool) (cwd : Loc) : (a.within cwd).base ab = (b.within cwd).base ab := by
  unfold base; cases ab <;> rfl

theorem ParentsThere.keeps {ab : Bool} {cwd : Loc} {ms : List Str} {a b : Fs} (h : ParentsThere ab cwd ms a) (hk : Keeps a b) : ParentsThere ab cwd ms b := by
  intro m hm
  rw [base_within b a]
  exact hk.folder _ (h m hm)

theorem locate_there {ab : Bool} {cwd : Loc} {ms : List Str} {fs : Fs} (h : ParentsThere ab cwd ms fs) {y : Str} (hp : ∀ w ∈ ms ++ [y], PlainName w) :
    (fs.within cwd).locate (cstr (pathText ab (ms ++ [y]))) = some ((fs.within cwd).base ab ++ (ms ++ [y])) := by
  rw [cstr_pathText ab hp, locate_pathText _ ab (by simp) hp]
  apply walk_plain hp
  intro m hm hne
  rcases List.prefix_concat_iff.1 hm with e | e
  · exact absurd e hne
  · exact h m e

theorem throwsOnly_createDirs {Q : Fs → Prop} {ab : Bool} {cwd : Loc} {ms : List Str} {y : Str} {fs : Fs} (hp : ∀ w ∈ ms ++ [y], PlainName w)
    (hpar : ParentsThere ab cwd ms fs) (hwr : ∀ l, fs.writable l = true) (n : Nat) (k : Bool → FsProg (Res Str))
    (ht : ∀ fs', Keeps fs fs' → ThrowsOnly Q cwd (k true) fs')
    (hf : ∀ fs', Keeps fs fs' → fs'.node ((fs'.within cwd).base ab ++ (ms ++ [y])) ≠ none → ThrowsOnly Q cwd (k false) fs') :
    ThrowsOnly Q cwd (.createDirs (n + 1) (pathText ab (ms ++ [y])) k) fs := by
  -- making the folder itself
  have last : ∀ fs1, Keeps fs fs1 → ThrowsOnly Q cwd (.mkdir (pathText ab (ms ++ [y])) k) fs1 := by
    intro fs1 hk1
    refine throwsOnly_mkdir (fun fs' hk => ht fs' (hk1.trans hk)) ?_
    intro fs' hk hm
    have hk2 := hk1.trans hk
    have hl := locate_there (hpar.keeps hk2) hp
    refine hf _ (hk2.trans (mkdir_keeps _ _ _ _)) ?_
    unfold Fs.mkdir at hm
    rw [hl] at hm
    dsimp only at hm
    split at hm
    · cases hm
    · rename_i hcond
      have hw : fs'.writable ((fs'.within cwd).base ab ++ (ms ++ [y])) = true := by rw [hk2.writable]; exact hwr _
      have hn : fs'.node ((fs'.within cwd).base ab ++ (ms ++ [y])) ≠ none := fun e => hcond ⟨e, hw⟩
      rw [base_within _ fs']
      exact (mkdir_keeps fs' cwd fs'.cwd (pathText ab (ms ++ [y]))).exists_ _ hn
  unfold FsProg.createDirs
  by_cases hns : ms = []
  · subst hns
    have hx := hp y (by simp)
    have hsep : ∀ d ∈ y, ¬ Spec.IsSep d := by
      intro d hd
      have := hx.2.1 d hd
      unfold Spec.IsSep
      simp [this.2.1, this.2.2]
    cases ab
    · have e : pathText false ([] ++ [y]) = y := rfl
      rw [e] at last ⊢
      rw [(C10_no_separator y hsep).2.2.2]
      exact last fs (Keeps.refl _)
    · have e : pathText true ([] ++ [y]) = [] ++ 47 :: y := rfl
      obtain ⟨h1, _, _, h4⟩ := C10_decompose [] y 47 (.inl rfl) hsep
      rw [e] at last ⊢
      rw [if_pos h4, h1]
      intro fs1 hk1
      dsimp only
      split
      · exact last fs1 hk1
      · cases n with
        | zero => exact last fs1 hk1
        | succ n =>
          unfold FsProg.createDirs
          rw [if_neg (by decide)]
          exact fun fs2 hk2 => last _ (hk1.trans (hk2.trans (mkdir_keeps _ _ _ _)))
  · obtain ⟨h1, h2⟩ := parent_pathText ab ms y hp hns
    rw [if_pos h1, h2]
    intro fs1 hk1
    have hpn : ∀ w ∈ ms, PlainName w := fun w hw => hp w (by simp [hw])
    have ex : (fs1.within cwd).folderExists (pathText ab ms) = true := by
      have hpar1 := hpar.keeps hk1
      have hl : (fs1.within cwd).locate (cstr (pathText ab ms)) = some ((fs1.within cwd).base ab ++ ms) := by
        rw [cstr_pathText ab hpn, locate_pathText _ ab hns hpn]
        exact walk_plain hpn fun m hm _ => hpar1 m hm
      have hn : (fs1.within cwd).node ((fs1.within cwd).base ab ++ ms) = some .folder := hpar1 ms (List.prefix_refl _)
      have st : (fs1.within cwd).stat (pathText ab ms) = some .folder := by
        unfold stat
        rw [hl]
        dsimp only
        rw [if_neg (fun h => h.2 hn), hn]
      unfold folderExists
      rw [st]
      rfl
    rw [ex]
    exact last fs1 hk1

/-- C163. If `create_unique_folder` throws, then all names it may use are taken, however many programs run at the same time: none of them keeps another from
finding a name. The folder in which the new one is to be exists, with permission to write. -/
theorem C163_throws (fs : Fs) (calls : List (Loc × FsCall)) (t : FsSystem (Res Str)) (h : (FsSystem.start fs calls).Steps t)
    (i : Nat) (cwd : Loc) (absolute : Bool) (ms : List Str) (x : Str) (n : Int) (hc : calls[i]? = some (cwd, .unique (pathText absolute (ms ++ [x])) n))
    (hp : ∀ w ∈ ms ++ [x], PlainName w) (hpar : ∀ m, m <+: ms → fs.node ((fs.within cwd).base absolute ++ m) = some .folder)
    (hwr : ∀ l, fs.writable l = true) (e : Exn) (ht : t.procs[i]? = some ⟨cwd, .ret (.throws e)⟩) (j : Nat) (hj : (j : Int) < n) :
    t.fs.node ((fs.within cwd).base absolute ++ (ms ++ [uniqueName x j])) ≠ none := by
  have hp' : ∀ i, ∀ w ∈ ms ++ [uniqueName x i], PlainName w := by
    intro i w hw
    rcases List.mem_append.1 hw with hw | hw
    · exact hp w (by simp [hw])
    · simp only [List.mem_singleton] at hw
      subst hw
      exact uniqueName_plain (hp x (by simp)) i
  let taken : Fs → Nat → Prop := fun a j => a.node ((fs.within cwd).base absolute ++ (ms ++ [uniqueName x j])) ≠ none
  have mono : ∀ a b, Keeps a b → ∀ j, taken a j → taken b j := fun a b hk j ha => hk.exists_ _ ha
  have gen : ∀ (m i : Nat) (a : Fs), i + m = n.toNat → Keeps fs a → (∀ j < i, taken a j) →
      ThrowsOnly (fun a => ∀ j : Nat, (j : Int) < n → taken a j) cwd (.uniqueFrom (pathText absolute (ms ++ [x])) m i) a := by
    intro m
    induction m with
    | zero =>
      intro i a hi _ ha j hj
      exact ha j (by omega)
    | succ m ih =>
      intro i a hi hk ha
      unfold FsProg.uniqueFrom
      rw [uniqueName_path]
      intro a1 hk1
      have hk2 := hk.trans hk1
      have here : ParentsThere absolute cwd ms a1 := ParentsThere.keeps hpar hk2
      have hl := locate_there here (hp' i)
      cases hb : (a1.within cwd).folderExists (pathText absolute (ms ++ [uniqueName x i])) with
      | true =>
        show ThrowsOnly _ cwd (.uniqueFrom (pathText absolute (ms ++ [x])) m (i + 1)) a1
        refine ih (i + 1) a1 (by omega) hk2 fun j hj => ?_
        by_cases e : j = i
        · subst e
          unfold folderExists stat at hb
          rw [hl] at hb
          dsimp only at hb
          have hb := of_decide_eq_true hb
          show a1.node _ ≠ none
          rw [base_within fs a1]
          split at hb
          · cases hb
          · exact fun e => by rw [show (a1.within cwd).node _ = _ from e] at hb; cases hb
        · exact mono _ _ hk1 j (ha j (by omega))
      | false =>
        refine throwsOnly_createDirs (hp' i) here (fun l => by rw [hk2.writable]; exact hwr l) _ _ (fun _ _ => trivial) ?_
        intro a2 hk3 hn
        refine ih (i + 1) a2 (by omega) (hk2.trans hk3) fun j hj => ?_
        by_cases e : j = i
        · subst e
          show a2.node _ ≠ none
          rw [base_within fs a2]
          exact hn
        · exact mono _ _ (hk1.trans hk3) j (ha j (by omega))
  obtain ⟨prog, a1, a2⟩ := throwsOnly_steps (Q := fun a => ∀ j : Nat, (j : Int) < n → taken a j) (fun a b hk ha j hj => mono a b hk j (ha j hj)) fs calls i cwd _ hc
    (gen n.toNat 0 fs (by omega) (Keeps.refl _) (by intro j hj; omega)) t h
  rw [ht] at a1
  cases a1
  exact a2 j hj

/-! ## Examples, and what several programs cannot rely on -/

/-- Three programs ask for the same folders and take turns. -/
example : ∃ t, (FsSystem.start Fs.empty [([], .unique b!"run" 10), ([], .unique b!"/./run" 10), ([], .directories b!"run (1)")]).Steps t ∧
    t.procs.map (fun p => p.prog.result) = [some (.ok b!"run"), some (.ok b!"/./run (2)"), some (.ok b!"run (1)")] := by
  have h : ((FsSystem.start Fs.empty [([], .unique b!"run" 10), ([], .unique b!"/./run" 10), ([], .directories b!"run (1)")]).turns
      [0, 1, 0, 2, 1, 1, 1, 1, 1, 1]).map (fun t => t.procs.map fun p => p.prog.result) =
        some [some (.ok b!"run"), some (.ok b!"/./run (2)"), some (.ok b!"run (1)")] := by decide +kernel
  obtain ⟨t, h1, h2⟩ := Option.map_eq_some_iff.1 h
  exact ⟨t, turns_steps _ _ _ h1, h2⟩

/-- Two programs that may try one name only: one of them gets it and the other throws, as the name is taken. -/
example : ∃ t, (FsSystem.start Fs.empty [([], .unique b!"run" 1), ([], .unique b!"run" 1)]).Steps t ∧
    t.procs.map (fun p => p.prog.result) = [some (.ok b!"run"), some (.throws .flutError)] ∧ PlainName b!"run" ∧
    pathText false ([] ++ [b!"run"]) = b!"run" ∧ (∀ l, Fs.empty.writable l = true) ∧ Fs.empty.node ((Fs.empty.within []).base false ++ []) = some .folder := by
  have h : ((FsSystem.start Fs.empty [([], .unique b!"run" 1), ([], .unique b!"run" 1)]).turns [0, 1, 0, 1]).map (fun t => t.procs.map fun p => p.prog.result) =
      some [some (.ok b!"run"), some (.throws .flutError)] := by decide +kernel
  obtain ⟨t, h1, h2⟩ := Option.map_eq_some_iff.1 h
  exact ⟨t, turns_steps _ _ _ h1, h2, by decide, rfl, fun _ => rfl, by decide⟩

/-- Two programs that copy files to the same new file without overwriting. -/
def twoCopies : FsSystem Bool :=
  ⟨⟨fun l => if l = [] then some .folder else if l = [b!"a"] then some (.file b!"first") else if l = [b!"b"] then some (.file b!"second") else none,
    [], fun _ => true, fun _ => true⟩, [⟨[], .copyFile b!"a" b!"c" false .ret⟩, ⟨[], .copyFile b!"b" b!"c" false .ret⟩]⟩

/-- C163. `copy_file` without overwriting can overwrite the copy that another program has just made; both return true. -/
theorem C163_copy_refuted : ∃ t, twoCopies.Steps t ∧ t.procs.map (fun p => p.prog.result) = [some true, some true] ∧
    t.fs.node [b!"c"] = some (.file b!"second") := by
  have h : (twoCopies.turns [0, 1, 0, 0, 0, 0, 1, 1, 1, 1]).map (fun t => (t.procs.map (fun p => p.prog.result), t.fs.node [b!"c"])) =
      some ([some true, some true], some (.file b!"second")) := by decide +kernel
  obtain ⟨t, h1, h2⟩ := Option.map_eq_some_iff.1 h
  exact ⟨t, turns_steps _ _ _ h1, (Prod.ext_iff.1 h2).1, (Prod.ext_iff.1 h2).2⟩

/-- A program that replaces a file by a copy of another, and one that loads it. -/
def copyAndLoad : FsSystem (Res Str) :=
  ⟨⟨fun l => if l = [] then some .folder else if l = [b!"a"] then some (.file b!"new") else if l = [b!"c"] then some (.file b!"old") else none,
    [], fun _ => true, fun _ => true⟩, [⟨[], .copyFile b!"a" b!"c" true fun b => .ret (if b then .ok [] else .throws .flutError)⟩, ⟨[], .loadString b!"c" .ret⟩]⟩

/-- C163. While `copy_file` replaces a file, `load_string` can read neither the old nor the new contents, and reports no error. -/
theorem C163_load_refuted : ∃ t, copyAndLoad.Steps t ∧ t.procs.map (fun p => p.prog.result) = [some (.ok []), some (.ok [])] ∧
    t.fs.node [b!"c"] = some (.file b!"new") := by
  have h : (copyAndLoad.turns [0, 0, 1, 1, 0, 0]).map (fun t => (t.procs.map (fun p => p.prog.result), t.fs.node [b!"c"])) =
      some ([some (.ok []), some (.ok [])], some (.file b!"new")) := by decide +kernel
  obtain ⟨t, h1, h2⟩ := Option.map_eq_some_iff.1 h
  exact ⟨t, turns_steps _ _ _ h1, (Prod.ext_iff.1 h2).1, (Prod.ext_iff.1 h2).2⟩

end Flut
