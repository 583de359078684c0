import Verif.Proofs.CutIni
import Verif.Props.FileSystem

/-!
# Ini files that were not saved completely (C110)

Specifications are in `Spec/Cut.lean` and `Spec/Ini.lean`.
-/

namespace Flut

open Spec Fs

/-- A beginning of the text of a saved document is rejected if it stops in a key or in the name of a group. Otherwise all items
and groups that are complete are loaded, and at most one more that has lost its end, as `CutIni` says. -/
theorem C110_saved_text (n : PN) (main groups : List (Str × PN)) (h : IniDoc n main groups) (hp : PlainIni main groups)
    (written : Str) (hw : written <+: saveIni n) :
    (loadIni written = .throws .flutError ∧ CutInName written) ∨
    ∃ m, loadIni written = .ok m ∧ m.value = [] ∧ CutIni written (kids m) main groups := by
  obtain ⟨a0, v, cs⟩ := n
  have hcs : cs = main ++ groups := h.parts
  subst hcs
  have happ : ∀ xs ys : List (Str × PN), saveIniLoop (xs ++ ys) = saveIniLoop xs ++ saveIniLoop ys := by
    intro xs ys
    induction xs with
    | nil => rfl
    | cons x xs ih => obtain ⟨k, n⟩ := x; simp [saveIniLoop, ih]
  rw [saveIni, PN.children, happ, saveIniLoop_main h.main_items.leaf h.main_value] at hw
  have e : PN.nil = .mk false [] [] := rfl
  rcases prefix_append_cases' hw with ⟨hi, -⟩ | ⟨u, rfl, hu⟩
  · rcases iniCut_items none (fun b done => .mk b [] done)
      (fun b done k' v' hn => by simp only [iniSet, set_new hn]; rfl) main written false [] h.main_items.leaf h.main_items.item
      hp.main (by simpa using h.main_items.distinct) hi _ (Nat.le_refl _) with ⟨q1, q2⟩ | ⟨b', cs, q1, q2⟩
    · exact .inl ⟨q1, q2⟩
    · exact .inr ⟨_, q1, rfl, .inl q2⟩
  · obtain ⟨b, hb⟩ := iniLoop_main main u false [] h.main_items.leaf h.main_items.item
      (by simpa using h.main_items.distinct) h.main_value
    rw [saveIniLoop_main h.main_items.leaf h.main_value] at hb
    have hlen := length_saveIniItems main
    obtain ⟨f', hf'⟩ : ∃ f', (saveIniItems main ++ u).length + 2 = f' + main.length :=
      ⟨(saveIniItems main ++ u).length + 2 - main.length, by simp only [List.length_append]; omega⟩
    rw [loadIni, hf', e, hb, List.nil_append]
    rcases iniCut_groups groups u b (plainItems main) none h.groups hp.items hp.names hu f' (by
      simp only [List.length_append] at hf'; omega) with ⟨q1, q2⟩ | ⟨gs', q1, q2⟩
    · refine .inl ⟨q1, ?_⟩
      by_cases hm : main = []
      · subst hm; simpa [saveIniItems] using q2
      · exact cutInName_append (last_saveIniItems hm) q2
    · refine .inr ⟨_, q1, rfl, .inr ⟨u, plainItems main, gs', by rw [iniLines_eq], rfl, cutItems_whole h.main_items.leaf, ?_, q2⟩⟩
      simp [plainItems]

/-- The same through a file: what `load_ini` finds when `save_ini` was interrupted. A complete save is one of the cases. -/
theorem C110_interrupted_save (fs after : Fs) (p : Str) (n : PN) (main groups : List (Str × PN)) (l : Loc)
    (hl : fs.locate (cstr p) = some l) (ho : (fs.openWrite p).isSome) (hr : fs.readable l = true) (hd : IniDoc n main groups)
    (hp : PlainIni main groups) (h : Interrupted fs l (saveIni n) after) :
    Interrupted fs l (saveIni n) (fs.saveIniFile n p) ∧
    (after = fs ∨ ∃ written, written <+: saveIni n ∧
      ((after.loadIniFile p = .throws .flutError ∧ CutInName written) ∨
       ∃ m, after.loadIniFile p = .ok m ∧ m.value = [] ∧ CutIni written (kids m) main groups)) := by
  cases hw : fs.openWrite p with
  | none => rw [hw] at ho; simp at ho
  | some w =>
    obtain ⟨l', fs1⟩ := w
    obtain ⟨w1, w2, w3, w4, w5⟩ := openWrite_some hw
    rw [hl] at w1
    simp only [Option.some.injEq] at w1
    subst w1
    constructor
    · refine .inr ⟨_, List.prefix_refl _, ?_⟩
      unfold saveIniFile
      rw [hw]
      dsimp only
      rw [w2, put_put]
    rcases h with h | ⟨u, hu, rfl⟩
    · exact .inl h
    refine .inr ⟨u, hu, ?_⟩
    rw [(C52_present_partial (fs.put l (.file u)) p u l (stat_put_file w4 hl w3)
      (by rw [locate_put_file w4]; exact hl) hr none).2.2]
    exact C110_saved_text n main groups hd hp u hu

/-- A document with an item before its groups, blanks in a value, and an item without value. -/
def cutIniExample : PN := .mk false []
  [(b!"top key", .mk false b!"1 = 2 [x]" []), (b!"g", .mk false [] [(b!"a", .mk false [] []), (b!"b", .mk false b!"#2" [])])]

theorem cutIniExample_doc : IniDoc cutIniExample (cutIniExample.children.take 1) (cutIniExample.children.drop 1) where
  no_value := rfl
  parts := rfl
  main_items := ⟨by simp [cutIniExample, PN.children, kids], by
    intro kn h; simp [cutIniExample, PN.children] at h; subst h
    exact ⟨by simp [OneLine], by decide, by decide, by decide, by simp [OneLine, PN.value], by decide, by decide⟩,
    by simp [cutIniExample, PN.children]⟩
  main_value := by simp [cutIniExample, PN.children, PN.value]
  groups := by
    intro kn h; simp [cutIniExample, PN.children] at h; subst h
    refine ⟨by simp, by simp [OneLine], rfl, by simp [kids], ⟨by simp [kids], ?_, by simp [kids]⟩⟩
    intro kn h
    simp [kids] at h
    rcases h with rfl | rfl
    · exact ⟨by simp [OneLine], by decide, by decide, by decide, by simp [OneLine, PN.value], by decide, by decide⟩
    · exact ⟨by simp [OneLine], by decide, by decide, by decide, by simp [OneLine, PN.value], by decide, by decide⟩

example : saveIni cutIniExample = b!"top key=1 = 2 [x]\n[g]\na=\nb=#2\n" ∧
    PlainIni (cutIniExample.children.take 1) (cutIniExample.children.drop 1) ∧
    (Fs.empty.openWrite b!"f").isSome ∧
    loadIni b!"top k" = .throws .flutError ∧
    loadIni b!"top key=1 = " = .ok (.mk true [] [(b!"top key", .mk false b!"1 =" [])]) ∧
    loadIni b!"top key=1 = 2 [x]\n[" = .throws .flutError ∧
    loadIni b!"top key=1 = 2 [x]\n[g]" = .ok (.mk true [] [(b!"top key", .mk false b!"1 = 2 [x]" []), (b!"g", .mk false [] [])]) ∧
    loadIni b!"top key=1 = 2 [x]\n[g]\na=\nb=#" = .ok (.mk true [] [(b!"top key", .mk false b!"1 = 2 [x]" []),
      (b!"g", .mk true [] [(b!"a", .mk false [] []), (b!"b", .mk false b!"#" [])])]) := by
  refine ⟨rfl, ⟨?_, ?_, ?_⟩, by decide +kernel, rfl, rfl, rfl, rfl, rfl⟩
  · intro kn h; simp [cutIniExample, PN.children] at h; subst h; decide
  · intro kn h; simp [cutIniExample, PN.children] at h; subst h; simp [kids]
  · intro kn h; simp [cutIniExample, PN.children] at h; subst h; decide

/-- An interrupted save is not always noticed: the beginning of a file loads without an error, as another document. -/
theorem C110_noticed_refuted : ∃ u, u <+: saveIni cutIniExample ∧
    ∃ r, loadIni u = .ok r ∧ ¬ SameTree r cutIniExample ∧ ¬ SameTree r PN.nil := by
  refine ⟨b!"top key=1", by decide +kernel, _, rfl, ?_, ?_⟩
  · rintro ⟨h, _⟩
    revert h; decide
  · rintro ⟨h, _⟩
    revert h; decide

/-- It does not always load either. -/
theorem C110_loads_refuted : ∃ u, u <+: saveIni cutIniExample ∧ loadIni u = .throws .flutError :=
  ⟨b!"top key=1 = 2 [x]\n[", by decide +kernel, rfl⟩

/-- Without `PlainIni`, a cut can turn the name of a group into an item of the document, and an item into a group. Both documents
are read back correctly when they are complete (C29). -/
theorem C110_kind_refuted :
    (∃ n u, u <+: saveIni n ∧ IniDoc n [] n.children ∧ (∀ kn ∈ n.children, kids kn.2 ≠ []) ∧
      loadIni u = .ok (.mk true [] [(b!"[a", .mk false b!"b" [])])) ∧
    (∃ n u, u <+: saveIni n ∧ IniDoc n n.children [] ∧ (∀ kn ∈ n.children, kids kn.2 = []) ∧
      loadIni u = .ok (.mk false [] [(b!"a=x", .mk false [] [])])) := by
  constructor
  · refine ⟨.mk false [] [(b!"a=b", .mk false [] [(b!"k", .mk false b!"1" [])])], b!"[a=b", by decide +kernel,
      ⟨rfl, rfl, ⟨by simp, by simp, by simp⟩, by simp, ?_⟩, by simp [PN.children, kids], rfl⟩
    intro kn h; simp [PN.children] at h; subst h
    refine ⟨by simp, by simp [OneLine], rfl, by simp [kids], ⟨by simp [kids], ?_, by simp [kids]⟩⟩
    intro kn h
    simp [kids] at h
    subst h
    exact ⟨by simp [OneLine], by decide, by decide, by decide, by simp [OneLine, PN.value], by decide, by decide⟩
  · refine ⟨.mk false [] [(b!"[a", .mk false b!"x]y" [])], b!"[a=x]", by decide +kernel,
      ⟨rfl, rfl, ⟨by simp [PN.children, kids], ?_, by simp [PN.children]⟩, by simp [PN.children, PN.value], by simp⟩,
      by simp [PN.children, kids], rfl⟩
    intro kn h; simp [PN.children] at h; subst h
    exact ⟨by simp [OneLine], by decide, by decide, by decide, by simp [OneLine, PN.value], by decide, by decide⟩

end Flut
