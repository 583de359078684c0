import Verif.Proofs.CutXml
import Verif.Spec.Cut
import Verif.Props.Xml

/-!
# XML files that were not saved completely (C108)
-/

namespace Flut

open Spec Spec.Xml Fs

/-- A beginning of any text that loads is rejected, or is taken for an empty file, or loads as the same tree: never as part of
the tree. -/
theorem C108_any_beginning (text written : Str) (r : PN) (hw : written <+: text) (h : parseXml text = .ok r) :
    parseXml written = .throws .stdException ∨ parseXml written = .ok PN.nil ∨ parseXml written = .ok r := by
  rcases Flut.Xml.parseXml_cut hw h with k | k | k | k
  · rcases Flut.Xml.parseXml_ends written with e | ⟨_, e, _⟩ <;> rw [e] at k <;> cases k
  · exact .inl k
  · exact .inr (.inl k)
  · exact .inr (.inr k)

example : parseXml b!"<?xml version=\"1.0\"?><a><b>1</b><!-- end --><c/></a><d/>" =
      .ok (.mk false [] [(b!"a", .mk false [] [(b!"b", .mk false b!"1" []), (b!"c", .mk false [] [])])]) ∧
    parseXml (b!"<?xml version=\"1.0\"?><a><b>1</b><!-- end --><c/></a><d/>".take 40) = .throws .stdException ∧
    parseXml (b!"<?xml version=\"1.0\"?><a><b>1</b><!-- end --><c/></a><d/>".take 21) = .ok PN.nil ∧
    parseXml (b!"<?xml version=\"1.0\"?><a><b>1</b><!-- end --><c/></a><d/>".take 52) =
      parseXml b!"<?xml version=\"1.0\"?><a><b>1</b><!-- end --><c/></a><d/>" := ⟨rfl, rfl, rfl, rfl⟩

/-- The text of a saved tree: the root element and two line breaks. -/
theorem savedXml_root {n x : PN} {k : Str} (hc : n.children = [(k, x)]) (h1 : Name k) (h2 : Storable x) :
    ∃ m : Markup, m.Valid ∧ savedXml n = m.render ++ [10, 10] ∧ m.meaning = [(k, x.clear)] := by
  refine ⟨Flut.Xml.printed 0 k x, Flut.Xml.printed_valid _ _ _ h2 h1, ?_, Flut.Xml.printed_meaning _ _ _ h2⟩
  have hr := Flut.Xml.printedDoc_render n.children (by simp [hc, h1]) (by simp [hc, h2])
  rw [savedXml, Flut.Xml.printDoc, ← hr, hc]
  simp [Flut.Xml.printedDoc, renderDoc]

/-- Of the text of a saved tree with one root, exactly the beginnings that lack no more than the two line breaks at the end load
as the tree; the empty one is taken for an empty file, and all others are rejected. -/
theorem C108_saved_text (n x : PN) (k written : Str) (hv : n.value = []) (hc : n.children = [(k, x)]) (h1 : Name k)
    (h2 : Storable x) (hw : written <+: savedXml n) :
    (written = [] ∧ parseXml written = .ok PN.nil) ∨
    (written ≠ [] ∧ written.length + 2 < (savedXml n).length ∧ parseXml written = .throws .stdException) ∨
    ((savedXml n).length ≤ written.length + 2 ∧ ∃ r, parseXml written = .ok r ∧ SameTree r n) := by
  obtain ⟨m, hm, hs, hmean⟩ := savedXml_root hc h1 h2
  rw [hs] at hw ⊢
  by_cases he : written = []
  · subst he
    exact .inl ⟨rfl, rfl⟩
  by_cases hl : written.length < m.render.length
  · refine .inr (.inl ⟨he, by simp; omega, ?_⟩)
    obtain ⟨y, t, hy, _⟩ := Flut.Xml.markup_head hm
    have hp : written <+: m.render := by
      rcases List.prefix_or_prefix_of_prefix hw (List.prefix_append m.render [10, 10]) with h | h
      · exact h
      · exact absurd h.length_le (by omega)
    obtain ⟨o, ho, _⟩ := Flut.Xml.parseNode_markup m hm [] (2 * (m.render ++ []).length) (Nat.le_refl _)
    have hz := Flut.Xml.markup_nz m hm
    cases written with
    | nil => exact absurd rfl he
    | cons c w =>
      rw [hy] at hp hl hz ho
      obtain ⟨e, hp'⟩ := List.cons_prefix_cons.1 hp
      subst e
      rcases Flut.Xml.parseXml_inside (t := y :: t) (t' := w) (r := []) (nd := o) (fun c hc => hz c (by simp [hc]))
          (k := 2 * (60 :: y :: t ++ []).length) (by simpa using ho) hp' (by simpa using hl) with e | e
      · rcases Flut.Xml.parseXml_ends (60 :: w) with e' | ⟨_, e', _⟩ <;> rw [e'] at e <;> cases e
      · exact e
  · refine .inr (.inr ⟨by simp; omega, .mk false [] [(k, x.clear)], ?_, ?_⟩)
    · obtain ⟨sp, hsp⟩ : ∃ sp, written = m.render ++ sp := by
        rcases List.prefix_or_prefix_of_prefix hw (List.prefix_append m.render [10, 10]) with h | ⟨sp, h⟩
        · exact ⟨[], by rw [h.eq_of_length (by have := h.length_le; omega), List.append_nil]⟩
        · exact ⟨sp, h.symm⟩
      have hb : Blanks sp := by
        rw [hsp, List.prefix_append_right_inj] at hw
        intro c hc
        have := hw.subset hc
        simp at this
        subst this
        simp [Blank]
      have := Flut.Xml.parseXml_doc false [] [(m, sp)] nofun (by
        intro ms hms
        simp only [List.mem_singleton] at hms
        subst hms
        exact ⟨hm, hb⟩)
      simpa [renderDoc, hsp, hmean] using this
    · obtain ⟨a, v, cs⟩ := n
      simp only [PN.value, PN.children] at hv hc
      subst hv
      subst hc
      rw [PN.sameTree_iff]
      simp [PN.clear, PN.clearAll, PN.clear_clear]

/-- If saving is interrupted, then loading throws, or gives an empty tree, or gives all that was saved, unless the file system is
as it was before. A complete save is one of these cases. -/
theorem C108_interrupted_save (fs after : Fs) (p : Str) (n x : PN) (k : Str) (l : Loc) (hl : fs.locate (cstr p) = some l)
    (ho : (fs.openWrite p).isSome) (hr : fs.readable l = true) (hv : n.value = []) (hc : n.children = [(k, x)]) (h1 : Name k)
    (h2 : Storable x) (h : Interrupted fs l (savedXml n) after) :
    Interrupted fs l (savedXml n) (fs.saveXml n p) ∧
    (after = fs ∨ (after.loadXml p none).1 = .throws .stdException ∨ (after.loadXml p none).1 = .ok PN.nil ∨
      ∃ r, (after.loadXml p none).1 = .ok r ∧ SameTree r n) := by
  cases hw : fs.openWrite p with
  | none => rw [hw] at ho; simp at ho
  | some w =>
    obtain ⟨l', fs1⟩ := w
    obtain ⟨w1, w2, w3, w4, w5⟩ := openWrite_some hw
    rw [hl] at w1
    simp only [Option.some.injEq] at w1
    subst w1
    constructor
    · refine .inr ⟨_, List.prefix_refl _, ?_⟩
      unfold saveXml
      rw [hw]
      dsimp only
      rw [w2, put_put]
    rcases h with h | ⟨u, hu, rfl⟩
    · exact .inl h
    refine .inr ?_
    have e : ((fs.put l (.file u)).loadXml p none).1 = parseXml u := by
      unfold loadXml
      rw [(C52_present_partial (fs.put l (.file u)) p u l (stat_put_file w4 hl w3)
        (by rw [locate_put_file w4]; exact hl) hr none).1]
      dsimp only
      rw [if_neg (by simp)]
      rcases Flut.Xml.parseXml_ends u with h | ⟨cs, h, _⟩ <;> rw [h]
    rw [e]
    rcases C108_saved_text n x k u hv hc h1 h2 hu with ⟨_, h⟩ | ⟨_, _, h⟩ | ⟨_, h⟩
    · exact .inr (.inl h)
    · exact .inl h
    · exact .inr (.inr h)

example : savedXml (.mk false [] [(b!"s", .mk false [] [(b!"x", .mk false b!"12" [])])]) = b!"<s>\n\t<x>12</x>\n</s>\n\n" ∧
    parseXml b!"<s>\n\t<x>12</x>\n</s" = .throws .stdException ∧
    parseXml b!"<s>\n\t<x>12</x>\n</s>" = .ok (.mk false [] [(b!"s", .mk false [] [(b!"x", .mk false b!"12" [])])]) := by
  exact ⟨rfl, rfl, rfl⟩

/-- What the file held before is lost: there is a moment at which neither the old nor the new tree can be loaded. -/
theorem C108_old_or_new_refuted : ∃ (fs after : Fs) (old new : PN),
    (fs.loadXml b!"f" none).1 = .ok old ∧
    Interrupted fs [b!"f"] (savedXml new) after ∧ (fs.saveXml new b!"f").stat b!"f" = some (.file (savedXml new)) ∧
    (after.loadXml b!"f" none).1 = .throws .stdException := by
  refine ⟨Fs.empty.put [b!"f"] (.file b!"<a>1</a>"), (Fs.empty.put [b!"f"] (.file b!"<a>1</a>")).put [b!"f"] (.file b!"<a>2"),
    .mk false [] [(b!"a", .mk false b!"1" [])], .mk false [] [(b!"a", .mk false b!"2" [])], rfl,
    .inr ⟨_, ?_, rfl⟩, by decide +kernel, rfl⟩
  decide +kernel

/-- Nor is an interruption always noticed: a file that was opened and not yet written loads without an error. -/
theorem C108_empty_accepted_refuted : ∃ (fs after : Fs) (new : PN),
    Interrupted fs [b!"f"] (savedXml new) after ∧ (fs.saveXml new b!"f").stat b!"f" = some (.file (savedXml new)) ∧
    after ≠ fs ∧ after.loadXml b!"f" (some ⟨0, []⟩) = (.ok PN.nil, some ⟨0, []⟩) := by
  refine ⟨Fs.empty, Fs.empty.put [b!"f"] (.file []), .mk false [] [(b!"a", .mk false b!"2" [])],
    .inr ⟨_, List.nil_prefix, rfl⟩, by decide +kernel, ?_, rfl⟩
  intro h
  have := congrArg (fun s => s.stat b!"f") h
  revert this
  decide +kernel

end Flut
