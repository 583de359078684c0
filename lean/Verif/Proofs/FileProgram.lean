import Verif.Spec.FileProgram
import Verif.Props.Xml
import Verif.Props.Basics
import Verif.Proofs.PropApi

/-!
# Lemmas on programs that save and load trees
-/

namespace Flut

open Spec

namespace FileProgram

/-! ### Trees with the same content fit the same formats -/

theorem same_value {m n : PN} (h : SameTree m n) : m.value = n.value := by
  cases h; rfl

theorem same_keys {m n : PN} (h : SameTree m n) : m.children.map Prod.fst = n.children.map Prod.fst := by
  cases h with
  | mk h1 h2 => exact h1

/-- Every child of the one has its counterpart in the other. -/
theorem same_child {m n : PN} (h : SameTree m n) {kx : Str × PN} (hx : kx ∈ m.children) :
    ∃ ky ∈ n.children, ky.1 = kx.1 ∧ SameTree kx.2 ky.2 := by
  cases h with
  | @mk a b v cs ds h1 h2 =>
    obtain ⟨i, hi, rfl⟩ := List.getElem_of_mem hx
    have hl : cs.length = ds.length := by simpa using congrArg List.length h1
    have hi0 : i < cs.length := hi
    have hi' : i < ds.length := by omega
    refine ⟨ds[i], List.getElem_mem hi', ?_, ?_⟩
    · have := congrArg (fun l : List Str => l[i]?) h1
      simp only [List.getElem?_map] at this
      change cs[i]?.map _ = _ at this
      rw [List.getElem?_eq_getElem hi0, List.getElem?_eq_getElem hi'] at this
      exact (Option.some.inj this).symm
    · refine h2 (cs[i], ds[i]) ?_
      have : (cs.zip ds)[i]? = some (cs[i], ds[i]) := by
        rw [List.getElem?_zip_eq_some]
        exact ⟨List.getElem?_eq_getElem hi0, List.getElem?_eq_getElem hi'⟩
      exact List.mem_of_getElem? this

theorem same_none {m n : PN} (h : SameTree m n) (hn : n.children = []) : m.children = [] := by
  have := same_keys h
  rw [hn] at this
  simpa using this

theorem printable_same {n : PN} (hp : PrintableTree n) : ∀ {m : PN}, SameTree m n → PrintableTree m := by
  induction hp with
  | @leaf a v hv =>
    intro m h
    have h1 := same_value h
    have h2 := same_none h rfl
    obtain ⟨a', v', cs⟩ := m
    change v' = v at h1
    change cs = [] at h2
    subst h1
    subst h2
    exact .leaf hv
  | @node a cs hne hk hc ih =>
    intro m h
    have h1 := same_value h
    have h2 := same_keys h
    have h3 := fun kx hx => same_child h (kx := kx) hx
    obtain ⟨a', v', cs'⟩ := m
    change v' = [] at h1
    subst h1
    refine .node ?_ ?_ ?_
    · intro e
      subst e
      have := congrArg List.length h2
      simp only [List.length_map] at this
      exact hne (List.length_eq_zero_iff.1 this.symm)
    · intro kx hx
      obtain ⟨ky, hy, e, -⟩ := h3 kx hx
      rw [← e]
      exact hk ky hy
    · intro kx hx
      obtain ⟨ky, hy, -, hs⟩ := h3 kx hx
      exact ih ky hy hs

theorem storable_same {n : PN} (hp : Spec.Xml.Storable n) : ∀ {m : PN}, SameTree m n → Spec.Xml.Storable m := by
  induction hp with
  | @leaf a v h1 h2 =>
    intro m h
    have e1 := same_value h
    have e2 := same_none h rfl
    obtain ⟨a', v', cs⟩ := m
    change v' = v at e1
    change cs = [] at e2
    subst e1
    subst e2
    exact .leaf h1 h2
  | @group a cs hk hc ih =>
    intro m h
    have h1 := same_value h
    have h3 := fun kx hx => same_child h (kx := kx) hx
    obtain ⟨a', v', cs'⟩ := m
    change v' = [] at h1
    subst h1
    refine .group ?_ ?_
    · intro kx hx
      obtain ⟨ky, hy, e, -⟩ := h3 kx hx
      rw [← e]
      exact hk ky hy
    · intro kx hx
      obtain ⟨ky, hy, -, hs⟩ := h3 kx hx
      exact ih ky hy hs

/-- Lists of children with the same content. -/
def SameList (cs ds : List (Str × PN)) : Prop := SameTree (.mk false [] cs) (.mk false [] ds)

theorem sameList_iff {cs ds : List (Str × PN)} :
    SameList cs ds ↔ cs.map Prod.fst = ds.map Prod.fst ∧ ∀ p ∈ cs.zip ds, SameTree p.1.2 p.2.2 := by
  constructor
  · intro h
    cases h with
    | mk h1 h2 => exact ⟨h1, h2⟩
  · rintro ⟨h1, h2⟩
    exact .mk h1 h2

theorem sameList_child {cs ds : List (Str × PN)} (h : SameList cs ds) {kx : Str × PN} (hx : kx ∈ cs) :
    ∃ ky ∈ ds, ky.1 = kx.1 ∧ SameTree kx.2 ky.2 := same_child h hx

theorem sameList_split {cs ds es : List (Str × PN)} (h : SameList cs (ds ++ es)) :
    SameList (cs.take ds.length) ds ∧ SameList (cs.drop ds.length) es := by
  obtain ⟨h1, h2⟩ := sameList_iff.1 h
  have e : cs.zip (ds ++ es) = (cs.take ds.length).zip ds ++ (cs.drop ds.length).zip es := by
    have hl : (cs.take ds.length).length = ds.length := by
      have := congrArg List.length h1
      simp at this
      simp
      omega
    rw [← List.zip_append hl, List.take_append_drop]
  refine ⟨sameList_iff.2 ⟨?_, ?_⟩, sameList_iff.2 ⟨?_, ?_⟩⟩
  · rw [List.map_take, h1, List.map_append, List.take_left' (by simp)]
  · intro p hp
    exact h2 p (by rw [e]; exact List.mem_append_left _ hp)
  · rw [List.map_drop, h1, List.map_append, List.drop_left' (by simp)]
  · intro p hp
    exact h2 p (by rw [e]; exact List.mem_append_right _ hp)

theorem same_kids {m n : PN} (h : SameTree m n) : SameList (kids m) (kids n) := by
  cases h with
  | mk h1 h2 => exact .mk h1 h2

theorem iniItems_same {cs ds : List (Str × PN)} (h : SameList cs ds) (hd : IniItems ds) : IniItems cs := by
  refine ⟨?_, ?_, ?_⟩
  · intro kx hx
    obtain ⟨ky, hy, -, hs⟩ := sameList_child h hx
    exact same_none hs (hd.leaf ky hy)
  · intro kx hx
    obtain ⟨ky, hy, e, hs⟩ := sameList_child h hx
    rw [← e, same_value hs]
    exact hd.item ky hy
  · rw [(sameList_iff.1 h).1]
    exact hd.distinct

theorem iniDoc_same {m n : PN} (h : SameTree m n) {main groups : List (Str × PN)} (hn : IniDoc n main groups) :
    ∃ main' groups', IniDoc m main' groups' := by
  have hk := same_kids h
  rw [hn.parts] at hk
  obtain ⟨h1, h2⟩ := sameList_split hk
  refine ⟨(kids m).take main.length, (kids m).drop main.length, ?_, ?_, iniItems_same h1 hn.main_items, ?_, ?_⟩
  · rw [same_value h]; exact hn.no_value
  · rw [List.take_append_drop]
  · intro kx hx
    obtain ⟨ky, hy, -, hs⟩ := sameList_child h1 hx
    rw [same_value hs]
    exact hn.main_value ky hy
  · intro kx hx
    obtain ⟨ky, hy, e, hs⟩ := sameList_child h2 hx
    have hg := hn.groups ky hy
    refine ⟨by rw [← e]; exact hg.name, by rw [← e]; exact hg.name_line, by rw [same_value hs]; exact hg.no_value, ?_,
      iniItems_same (same_kids hs) hg.items⟩
    intro hnil
    exact hg.non_empty (same_none (PN.sameTree_symm hs) hnil)

theorem fits_same {f : TreeFormat} {m n : PN} (h : SameTree m n) (hn : FitsFormat f n) : FitsFormat f m := by
  cases f with
  | prop =>
    obtain ⟨h1, h2, h3⟩ := hn
    refine ⟨by rw [same_value h]; exact h1, ?_, ?_⟩
    · intro kx hx
      obtain ⟨ky, hy, e, -⟩ := same_child h hx
      rw [← e]
      exact h2 ky hy
    · intro kx hx
      obtain ⟨ky, hy, -, hs⟩ := same_child h hx
      exact printable_same (h3 ky hy) hs
  | xml =>
    obtain ⟨h1, k, x, h2, h3, h4⟩ := hn
    refine ⟨by rw [same_value h]; exact h1, ?_⟩
    have hk := same_keys h
    rw [h2] at hk
    obtain ⟨a, v, cs⟩ := m
    match cs, hk with
    | [(k', x')], hk =>
      have e : k' = k := by simpa [PN.children] using hk
      subst e
      refine ⟨k', x', rfl, h3, ?_⟩
      obtain ⟨ky, hy, -, hs⟩ := same_child h (kx := (k', x')) (by simp [PN.children])
      rw [h2] at hy
      simp only [List.mem_singleton] at hy
      subst hy
      exact storable_same h4 hs
  | ini =>
    obtain ⟨main, groups, h1⟩ := hn
    exact iniDoc_same h h1

/-! ### The text of a file -/

/-- The text that is saved. -/
def text (f : TreeFormat) (n : PN) : Str :=
  match f with
  | .prop => savedProp true n
  | .xml => savedXml n
  | .ini => saveIni n

/-- The tree that is loaded from a text. -/
def parse (f : TreeFormat) (s : Str) : Res PN :=
  match f with
  | .prop => parseProp s
  | .xml => parseXml s
  | .ini => loadIni s

theorem parse_text {f : TreeFormat} {n : PN} (h : FitsFormat f n) : ∃ r, parse f (text f n) = .ok r ∧ SameTree r n := by
  cases f with
  | prop => exact C17_round_trip n h.1 h.2.1 h.2.2
  | xml =>
    obtain ⟨h1, k, x, h2, h3, h4⟩ := h
    exact C78_round_trip_partial n x k h1 h2 h3 h4
  | ini =>
    obtain ⟨main, groups, h⟩ := h
    exact C29_round_trip n main groups h

theorem save_put {fs : Fs} {f : TreeFormat} {n : PN} {p : Str} {l : Loc} (hl : fs.locate (cstr p) = some l)
    (hs : (cstr p).getLast? ≠ some 47) (hf : fs.node l ≠ some .folder) (hw : fs.writable l = true) :
    save f n p fs = fs.put l (.file (text f n)) := by
  have h : fs.openWrite p = some (l, fs.put l (.file [])) := by
    unfold Fs.openWrite
    rw [hl]
    simp only
    rw [if_neg]
    rintro (h | h | h)
    · exact hs h
    · exact hf h
    · rw [hw] at h; cases h
  cases f with
  | prop => simp only [save, Fs.saveProp, h, put_put, text]
  | xml => simp only [save, Fs.saveXml, h, put_put, text]
  | ini => simp only [save, Fs.saveIniFile, h, put_put, text]

theorem load_file {fs : Fs} {f : TreeFormat} {p c : Str} {l : Loc} (hl : fs.locate (cstr p) = some l)
    (hs : (cstr p).getLast? ≠ some 47) (hf : fs.node l = some (.file c)) (hr : fs.readable l = true) : load f p fs = parse f c := by
  have hst : fs.stat p = some (.file c) := by
    unfold Fs.stat
    rw [hl]
    simp only [hf]
    rw [if_neg (fun h => hs h.1)]
  obtain ⟨h1, h2, h3⟩ := C52_present_partial fs p c l hst hl hr none
  cases f with
  | prop => simp only [load, parse]; rw [h2 (by simp)]
  | xml =>
    simp only [load, parse, Fs.loadXml, h1]
    simp
  | ini => simp only [load, parse]; exact h3

theorem extension_xml (p : Str) : ∃ e, extension p = .ok e ∧ (e = b!"xml" ↔ b!".xml" <:+ p) := by
  have hx : ∀ d ∈ (b!"xml" : Str), (d == (46 : Byte)) = false := by decide
  unfold extension
  cases h : findLast (· == 46) p with
  | none =>
    refine ⟨[], rfl, ?_⟩
    constructor
    · intro h; cases h
    · rintro ⟨a, rfl⟩
      have := findLast_eq_none.1 h 46 (by simp)
      simp at this
  | some i =>
    obtain ⟨pre, c, post, rfl, rfl, hc, hpost⟩ := findLast_eq_some.1 h
    have hc : c = 46 := by simpa using hc
    subst hc
    have hsub : substr (pre ++ 46 :: post) (pre.length + 1) none = .ok post := by
      simp [substr]
    refine ⟨post, hsub, ?_⟩
    constructor
    · rintro rfl
      exact ⟨pre, rfl⟩
    · rintro ⟨a, ha⟩
      have h2 : findLast (· == 46) (a ++ 46 :: b!"xml") = some a.length := findLast_append_cons (by simp) hx
      have h3 : a ++ 46 :: b!"xml" = pre ++ 46 :: post := ha
      rw [h3, h] at h2
      have hl : pre.length = a.length := Option.some.inj h2
      have := List.append_inj_right h3 hl.symm
      simpa using this.symm

/-! ### Programs -/

/-- The state of the code, and that of the specification, for a program that started with the files `fs0` and the trees `ts`. -/
structure Is (fs0 : Fs) (ts : List PN) (s : FileProgram) (σ : Shelf) : Prop where
  readable : s.fs.readable = fs0.readable
  writable : s.fs.writable = fs0.writable
  locate : ∀ p, s.fs.locate p = fs0.locate p
  folder : ∀ l, s.fs.node l = some .folder ↔ fs0.node l = some .folder
  length : s.vars.length = σ.vars.length
  vars : ∀ (v : Nat) (n : PN), s.vars[v]? = some n → ∃ k m, σ.vars[v]? = some k ∧ ts[k]? = some m ∧ SameTree n m
  files : ∀ l f k, σ.files l = some (f, k) → ∃ m n, ts[k]? = some m ∧ SameTree n m ∧ FitsFormat f m ∧ s.fs.node l = some (.file (text f n))
  others : ∀ l, σ.files l = none → s.fs.node l = fs0.node l

theorem Is.load {fs0 : Fs} {ts : List PN} {s : FileProgram} {σ : Shelf} (h : Is fs0 ts s σ) {f : TreeFormat} {p : Str} {k : Nat}
    (hp : Usable fs0 p) (hk : σ.take f (fs0.locate (cstr p)) = some k) :
    ∃ n, FileProgram.load f p s.fs = .ok n ∧ Is fs0 ts ⟨s.fs, s.vars ++ [n]⟩ ⟨σ.vars ++ [k], σ.files⟩ := by
  obtain ⟨l, h1, h2, h3, h4, h5⟩ := hp
  rw [h1] at hk
  simp only [Shelf.take] at hk
  cases hf : σ.files l with
  | none => rw [hf] at hk; cases hk
  | some fk =>
    obtain ⟨f', k'⟩ := fk
    rw [hf] at hk
    simp only at hk
    split at hk
    · rename_i e
      subst e
      cases hk
      obtain ⟨m, n, e1, e2, e3, e4⟩ := h.files l f' k hf
      obtain ⟨r, e5, e6⟩ := parse_text (fits_same e2 e3)
      refine ⟨r, ?_, ⟨h.readable, h.writable, h.locate, h.folder, ?_, ?_, h.files, h.others⟩⟩
      · rw [load_file (by rw [h.locate]; exact h1) h2 e4 (by rw [h.readable]; exact h5)]
        exact e5
      · simp [h.length]
      · intro v n' hv
        simp only at hv ⊢
        rcases Nat.lt_or_ge v s.vars.length with hlt | hge
        · rw [List.getElem?_append_left hlt] at hv
          rw [List.getElem?_append_left (by rw [← h.length]; exact hlt)]
          exact h.vars v n' hv
        · rw [List.getElem?_append_right hge] at hv
          rw [List.getElem?_append_right (by rw [← h.length]; exact hge), ← h.length]
          cases hd : v - s.vars.length with
          | zero =>
            rw [hd] at hv
            cases hv
            exact ⟨k, m, rfl, e1, PN.sameTree_trans e6 e2⟩
          | succ j => rw [hd] at hv; simp at hv
    · cases hk

theorem Is.step {fs0 : Fs} {ts : List PN} {s : FileProgram} {σ σ' : Shelf} (h : Is fs0 ts s σ) {a : FileAct} (hp : Usable fs0 (nameOf a))
    (hfit : ∀ f v p k m, a = .save f v p → σ.vars[v]? = some k → ts[k]? = some m → FitsFormat f m)
    (hσ : σ.step (fun p => fs0.locate (cstr p)) a = some σ') : ∃ s', s.step a = .ok s' ∧ Is fs0 ts s' σ' := by
  cases a with
  | save f v p =>
    obtain ⟨l, h1, h2, h3, h4, h5⟩ := hp
    simp only [nameOf] at h1 h2
    simp only [Shelf.step, h1] at hσ
    cases hv : σ.vars[v]? with
    | none => rw [hv] at hσ; cases hσ
    | some k =>
      rw [hv] at hσ
      cases hσ
      have hlt : v < s.vars.length := by
        rw [h.length]
        rcases Nat.lt_or_ge v σ.vars.length with h | h
        · exact h
        · rw [List.getElem?_eq_none h] at hv; cases hv
      obtain ⟨k', m, e1, e2, e3⟩ := h.vars v s.vars[v] (List.getElem?_eq_getElem hlt)
      rw [hv] at e1
      cases e1
      refine ⟨⟨save f s.vars[v] p s.fs, s.vars⟩, ?_, ?_⟩
      · simp only [FileProgram.step, List.getElem?_eq_getElem hlt]
      · have hnf : s.fs.node l ≠ some .folder := fun e => h3 ((h.folder l).1 e)
        rw [save_put (by rw [h.locate]; exact h1) h2 hnf (by rw [h.writable]; exact h4)]
        refine ⟨h.readable, h.writable, ?_, ?_, h.length, h.vars, ?_, ?_⟩
        · intro q
          simp only [locate_put_file hnf]
          exact h.locate q
        · intro l'
          simp only [Fs.put]
          split
          · rename_i e
            subst e
            constructor
            · intro e; cases e
            · intro e; exact absurd e h3
          · exact h.folder l'
        · intro l' f' k'' hf
          simp only at hf ⊢
          simp only [Fs.put]
          split at hf
          · rename_i e
            cases hf
            exact ⟨m, s.vars[v], e2, e3, hfit f v p k m rfl hv e2, by rw [if_pos e]⟩
          · rename_i e
            rw [if_neg e]
            exact h.files l' f' k'' hf
        · intro l' hf
          simp only at hf ⊢
          simp only [Fs.put]
          split at hf
          · cases hf
          · rename_i e
            rw [if_neg e]
            exact h.others l' hf
  | load f p =>
    simp only [Shelf.step] at hσ
    cases hk : σ.take f (fs0.locate (cstr p)) with
    | none => rw [hk] at hσ; cases hσ
    | some k =>
      rw [hk] at hσ
      cases hσ
      obtain ⟨n, e1, e2⟩ := h.load (p := p) hp hk
      exact ⟨_, by simp only [FileProgram.step, e1]; rfl, e2⟩
  | loadFile p =>
    simp only [Shelf.step] at hσ
    cases hk : σ.take (if b!".xml" <:+ p then .xml else .prop) (fs0.locate (cstr p)) with
    | none => rw [hk] at hσ; cases hσ
    | some k =>
      rw [hk] at hσ
      cases hσ
      obtain ⟨n, e1, e2⟩ := h.load (p := p) hp hk
      refine ⟨⟨s.fs, s.vars ++ [n]⟩, ?_, e2⟩
      obtain ⟨e, he, hx⟩ := extension_xml p
      simp only [FileProgram.step, Fs.loadFile, he, Res.bind_ok]
      by_cases hs : b!".xml" <:+ p
      · rw [if_pos hs] at e1
        rw [if_pos (hx.2 hs)]
        simp only [FileProgram.load] at e1
        rw [e1]
        rfl
      · rw [if_neg hs] at e1
        rw [if_neg (fun e => hs (hx.1 e))]
        simp only [FileProgram.load] at e1
        rw [e1]
        rfl

theorem run_is {fs0 : Fs} {ts : List PN} {as : List FileAct} {s : FileProgram} {σ σ' : Shelf} (h : Is fs0 ts s σ)
    (hp : ∀ a ∈ as, Usable fs0 (nameOf a))
    (hfit : ∀ f k m, (f, k) ∈ Shelf.saved (fun p => fs0.locate (cstr p)) as σ → ts[k]? = some m → FitsFormat f m)
    (hσ : Shelf.run (fun p => fs0.locate (cstr p)) as σ = some σ') : ∃ s', run as s = .ok s' ∧ Is fs0 ts s' σ' := by
  induction as generalizing s σ with
  | nil => cases hσ; exact ⟨s, rfl, h⟩
  | cons a as ih =>
    simp only [Shelf.run] at hσ
    cases h1 : σ.step (fun p => fs0.locate (cstr p)) a with
    | none => rw [h1] at hσ; cases hσ
    | some σ1 =>
      rw [h1] at hσ
      obtain ⟨s1, e1, e2⟩ := h.step (hp a (by simp)) (by
        rintro f v p k m rfl hv hm
        refine hfit f k m ?_ hm
        simp [Shelf.saved, hv]) h1
      obtain ⟨s2, e3, e4⟩ := ih e2 (fun a ha => hp a (by simp [ha])) (by
        intro f k m hk hm
        refine hfit f k m ?_ hm
        simp only [Shelf.saved, h1]
        exact List.mem_append_right _ hk) hσ
      exact ⟨s2, by simp only [run, e1, Res.bind_ok, e3], e4⟩

theorem start_is (fs0 : Fs) (ts : List PN) : Is fs0 ts ⟨fs0, ts⟩ ⟨List.range ts.length, fun _ => none⟩ := by
  refine ⟨rfl, rfl, fun _ => rfl, fun _ => Iff.rfl, by simp, ?_, ?_, fun _ _ => rfl⟩
  · intro v n hv
    have hlt : v < ts.length := by
      rcases Nat.lt_or_ge v ts.length with h | h
      · exact h
      · simp only at hv; rw [List.getElem?_eq_none h] at hv; cases hv
    exact ⟨v, n, by simp [hlt], hv, PN.sameTree_refl n⟩
  · intro l f k h
    cases h

theorem conversions_run (loc : Str → Option Loc) (fps : List (TreeFormat × Str)) (hl : ∀ fp ∈ fps, ∃ l, loc fp.2 = some l) (σ : Shelf) (c : Nat)
    (hσ : σ.vars = List.replicate (c + 1) 0) :
    ∃ σ', Shelf.run loc (conversions c fps) σ = some σ' ∧ σ'.vars = List.replicate (c + 1 + fps.length) 0 ∧
      (∀ l, σ'.files l = none ↔ σ.files l = none ∧ ∀ fp ∈ fps, loc fp.2 ≠ some l) ∧
      ∀ f k, (f, k) ∈ Shelf.saved loc (conversions c fps) σ → k = 0 ∧ ∃ fp ∈ fps, fp.1 = f := by
  induction fps generalizing σ c with
  | nil => exact ⟨σ, rfl, hσ, by simp, by intro f k h; cases h⟩
  | cons fp fps ih =>
    obtain ⟨f, p⟩ := fp
    obtain ⟨l, hloc⟩ := hl (f, p) (by simp)
    simp only at hloc
    have hv : σ.vars[c]? = some 0 := by rw [hσ, List.getElem?_replicate, if_pos (by omega)]
    have s1 : σ.step loc (.save f c p) = some ⟨σ.vars, fun m => if m = l then some (f, 0) else σ.files m⟩ := by
      simp only [Shelf.step, hv, hloc]
    have s2 : Shelf.step loc ⟨σ.vars, fun m => if m = l then some (f, 0) else σ.files m⟩ (.load f p) =
        some ⟨σ.vars ++ [0], fun m => if m = l then some (f, 0) else σ.files m⟩ := by
      simp [Shelf.step, Shelf.take, hloc]
    obtain ⟨σ', e1, e2, e3, e4⟩ := ih (fun fp h => hl fp (by simp [h])) ⟨σ.vars ++ [0], fun m => if m = l then some (f, 0) else σ.files m⟩ (c + 1)
      (by simp only [hσ, ← List.replicate_succ'])
    refine ⟨σ', ?_, ?_, ?_, ?_⟩
    · simp only [conversions, Shelf.run, s1, s2, Option.bind_some, e1]
    · rw [e2, List.length_cons]
      congr 1
      omega
    · intro l'
      rw [e3]
      simp only [List.mem_cons, forall_eq_or_imp, hloc]
      by_cases e : l' = l
      · subst e; simp
      · rw [if_neg e]
        constructor
        · rintro ⟨h1, h2⟩
          exact ⟨h1, fun h => e (Option.some.inj h).symm, h2⟩
        · rintro ⟨h1, -, h2⟩
          exact ⟨h1, h2⟩
    · intro f' k h
      simp only [conversions, Shelf.saved, s1, s2, hv, Option.map_some, Option.toList_some, List.nil_append, List.singleton_append, List.mem_cons,
        Prod.mk.injEq] at h
      rcases h with ⟨rfl, rfl⟩ | h
      · exact ⟨rfl, (f', p), by simp, rfl⟩
      · obtain ⟨h1, fp, h2, h3⟩ := e4 f' k h
        exact ⟨h1, fp, by simp [h2], h3⟩

end FileProgram

end Flut
