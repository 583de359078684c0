import Verif.Proofs.FileProgram

/-!
# C150: saving, loading and converting property trees
-/

namespace Flut

open Spec

open FileProgram in
/-- Files hold what was saved last. For any program that saves and loads trees in the three formats: if every name can be written to and read from, if every tree
that is saved fits its format, and if every file is loaded in the format it was saved in, then nothing throws, every tree that is loaded is the one that was saved
there last, under whatever name, and all other files are untouched. -/
theorem C150_files (fs : Fs) (ts : List PN) (as : List FileAct) (σ : Shelf) (hp : ∀ a ∈ as, Usable fs (nameOf a))
    (hfit : ∀ f k m, (f, k) ∈ Shelf.saved (fun p => fs.locate (cstr p)) as ⟨List.range ts.length, fun _ => none⟩ → ts[k]? = some m → FitsFormat f m)
    (hσ : Shelf.run (fun p => fs.locate (cstr p)) as ⟨List.range ts.length, fun _ => none⟩ = some σ) :
    ∃ s, run as ⟨fs, ts⟩ = .ok s ∧ s.vars.length = σ.vars.length ∧
      (∀ (v : Nat) (n : PN), s.vars[v]? = some n → ∃ k m, σ.vars[v]? = some k ∧ ts[k]? = some m ∧ SameTree n m) ∧
      ∀ l, σ.files l = none → s.fs.node l = fs.node l := by
  obtain ⟨s, h1, h2⟩ := run_is (start_is fs ts) hp hfit hσ
  exact ⟨s, h1, h2.length, h2.vars, h2.others⟩

/-- Two trees in three files, one of which is overwritten. -/
example : ((Shelf.run (fun p => Fs.empty.locate (cstr p)) [.save .prop 0 b!"a.prop", .save .xml 1 b!"b.xml", .load .prop b!"./a.prop", .save .ini 2 b!"c",
      .loadFile b!"b.xml", .save .prop 3 b!"a.prop", .loadFile b!"a.prop", .load .ini b!"c"] ⟨List.range 2, fun _ => none⟩).map (·.vars)) =
    some [0, 1, 0, 1, 1, 0] := by decide +kernel

open FileProgram in
/-- A tree can be converted from format to format any number of times. -/
theorem C150_convert (fs : Fs) (n : PN) (fps : List (TreeFormat × Str)) (hp : ∀ fp ∈ fps, Usable fs fp.2) (hfit : ∀ fp ∈ fps, FitsFormat fp.1 n) :
    ∃ s, run (conversions 0 fps) ⟨fs, [n]⟩ = .ok s ∧ s.vars.length = fps.length + 1 ∧ (∀ m ∈ s.vars, SameTree m n) ∧
      ∀ l, (∀ fp ∈ fps, fs.locate (cstr fp.2) ≠ some l) → s.fs.node l = fs.node l := by
  have hnames : ∀ (c : Nat) (fps : List (TreeFormat × Str)), (∀ fp ∈ fps, Usable fs fp.2) → ∀ a ∈ conversions c fps, Usable fs (nameOf a) := by
    intro c fps hp
    induction fps generalizing c with
    | nil => intro a ha; cases ha
    | cons fp fps ih =>
      obtain ⟨f, p⟩ := fp
      intro a ha
      simp only [conversions, List.mem_cons] at ha
      rcases ha with rfl | rfl | ha
      · exact hp (f, p) (by simp)
      · exact hp (f, p) (by simp)
      · exact ih (c + 1) (fun fp h => hp fp (by simp [h])) a ha
  obtain ⟨σ, e1, e2, e3, e4⟩ := conversions_run (fun p => fs.locate (cstr p)) fps (fun fp h => by obtain ⟨l, hl, -⟩ := hp fp h; exact ⟨l, hl⟩)
    ⟨List.range [n].length, fun _ => none⟩ 0 rfl
  obtain ⟨s, h1, h2, h3, h4⟩ := C150_files fs [n] (conversions 0 fps) σ (hnames 0 fps hp) (by
    intro f k m hk hm
    obtain ⟨rfl, fp, h5, rfl⟩ := e4 f k hk
    cases hm
    exact hfit fp h5) e1
  refine ⟨s, h1, by rw [h2, e2, List.length_replicate]; omega, ?_, ?_⟩
  · intro m hm
    obtain ⟨i, hi⟩ := List.getElem?_of_mem hm
    obtain ⟨k, m', h5, h6, h7⟩ := h3 i m hi
    rw [e2, List.getElem?_replicate] at h5
    split at h5
    · cases h5
      cases h6
      exact h7
    · cases h5
  · intro l hl
    exact h4 l ((e3 l).2 ⟨rfl, hl⟩)

/-- A tree with one group of settings fits all three formats. -/
example : ∀ f, FitsFormat f (.mk false [] [(b!"model", .mk false [] [(b!"mass", .mk false b!"75.5" []), (b!"name", .mk false b!"gait10" [])])]) := by
  intro f
  cases f with
  | prop =>
    refine ⟨rfl, by decide, ?_⟩
    intro kn hkn
    simp only [PN.children, List.mem_singleton] at hkn
    subst hkn
    refine .node (by simp) (by decide) ?_
    intro kn hkn
    simp only [List.mem_cons, List.not_mem_nil, or_false] at hkn
    rcases hkn with rfl | rfl
    · exact .leaf (by decide)
    · exact .leaf (by decide)
  | xml =>
    refine ⟨rfl, _, _, rfl, by decide, .group (by decide) ?_⟩
    intro kn hkn
    simp only [List.mem_cons, List.not_mem_nil, or_false] at hkn
    rcases hkn with rfl | rfl
    · exact .leaf (by decide) (by decide)
    · exact .leaf (by decide) (by decide)
  | ini =>
    refine ⟨[], _, rfl, rfl, ⟨by simp, by simp, by simp⟩, by simp, ?_⟩
    intro kn hkn
    simp only [List.mem_singleton] at hkn
    subst hkn
    refine ⟨by decide, by unfold OneLine; decide, rfl, by decide, ⟨by decide, ?_, by decide⟩⟩
    intro kn hkn
    simp only [kids, List.mem_cons, List.not_mem_nil, or_false] at hkn
    rcases hkn with rfl | rfl
    · exact ⟨by unfold OneLine; decide, by decide, by decide, by decide, by unfold OneLine; decide, by decide, by decide⟩
    · exact ⟨by unfold OneLine; decide, by decide, by decide, by decide, by unfold OneLine; decide, by decide, by decide⟩

/-- Conversions from prop to XML. -/
example : (FileProgram.run (conversions 0 [(.prop, b!"a"), (.xml, b!"b")])
      ⟨Fs.empty, [.mk false [] [(b!"m", .mk false [] [(b!"x", .mk false b!"7" [])])]]⟩ >>= fun s =>
        .ok (s.vars.map (fun n => n.children.map Prod.fst))) = .ok [[b!"m"], [b!"m"], [b!"m"]] := by decide +kernel

/-- `load_file` does not find out about the format otherwise: an ini file is read as prop, and loses its groups, and a name in upper case is not taken for XML. -/
theorem C150_load_file_refuted :
    (∃ s, FileProgram.run [.save .ini 0 b!"a.ini", .loadFile b!"a.ini"]
        ⟨Fs.empty, [.mk false [] [(b!"a", .mk false b!"1" []), (b!"g", .mk false [] [(b!"b", .mk false b!"1" [])])]]⟩ = .ok s ∧
      s.vars.map (fun n => n.children.map Prod.fst) = [[b!"a", b!"g"], [b!"a"]]) ∧
    ∃ s, FileProgram.run [.save .xml 0 b!"a.XML", .loadFile b!"a.XML"] ⟨Fs.empty, [.mk false [] [(b!"a", .mk false b!"1" [])]]⟩ = .ok s ∧
      s.vars.map (fun n => n.children.map Prod.fst) = [[b!"a"], []] := by
  constructor
  · have h : (FileProgram.run [.save .ini 0 b!"a.ini", .loadFile b!"a.ini"]
        ⟨Fs.empty, [.mk false [] [(b!"a", .mk false b!"1" []), (b!"g", .mk false [] [(b!"b", .mk false b!"1" [])])]]⟩ >>= fun s =>
          .ok (s.vars.map (fun n => n.children.map Prod.fst))) = .ok [[b!"a", b!"g"], [b!"a"]] := by decide +kernel
    obtain ⟨s, h1, h2⟩ := Res.bind_eq_ok.1 h
    exact ⟨s, h1, by simpa using h2⟩
  · have h : (FileProgram.run [.save .xml 0 b!"a.XML", .loadFile b!"a.XML"] ⟨Fs.empty, [.mk false [] [(b!"a", .mk false b!"1" [])]]⟩ >>= fun s =>
          .ok (s.vars.map (fun n => n.children.map Prod.fst))) = .ok [[b!"a"], []] := by decide +kernel
    obtain ⟨s, h1, h2⟩ := Res.bind_eq_ok.1 h
    exact ⟨s, h1, by simpa using h2⟩

end Flut
