import Verif.Proofs.Ini

/-!
# C29: ini files

Specifications are in `Spec/Ini.lean`.
-/

namespace Flut

open Spec PN CharStream

/-- Reading what `save_ini` wrote gives the same document. -/
theorem C29_round_trip (n : PN) (main groups : List (Str × PN)) (h : IniDoc n main groups) :
    ∃ m, loadIni (saveIni n) = .ok m ∧ SameTree m n := by
  obtain ⟨a0, v, cs⟩ := n
  have hv : v = [] := h.no_value
  have hcs : cs = main ++ groups := h.parts
  subst hv hcs
  have happ : ∀ xs ys : List (Str × PN), saveIniLoop (xs ++ ys) = saveIniLoop xs ++ saveIniLoop ys := by
    intro xs ys
    induction xs with
    | nil => rfl
    | cons x xs ih => obtain ⟨k, n⟩ := x; simp [saveIniLoop, ih]
  have hlen : main.length ≤ (saveIniLoop main).length := by
    have hm := h.main_value
    have hl := h.main_items.leaf
    clear h
    induction main with
    | nil => simp
    | cons x xs ih =>
      obtain ⟨k, a, v, ks⟩ := x
      have h1 := hm _ (List.mem_cons_self ..)
      have h2 := hl _ (List.mem_cons_self ..)
      simp only [PN.value, kids] at h1 h2
      subst h2
      have := ih (fun kn hk => hm kn (by simp [hk])) (fun kn hk => hl kn (by simp [hk]))
      simp only [saveIniLoop, PN.size, PN.children, hasValue, PN.value, List.length_nil, List.length_cons,
        List.length_append]
      simp [h1]
      omega
  obtain ⟨b, hb⟩ := iniLoop_main main (saveIniLoop groups) false [] h.main_items.leaf h.main_items.item
    (by simpa using h.main_items.distinct) h.main_value
  obtain ⟨N, gs', h1, h2, h3⟩ := iniLoop_groups groups b (plainItems main) none h.groups
  refine ⟨.mk b [] (plainItems main ++ gs'), ?_, ?_⟩
  · rw [loadIni, saveIni, PN.children, happ]
    obtain ⟨f, hf⟩ : ∃ f, (saveIniLoop main ++ saveIniLoop groups).length + 2 = f + N + main.length := by
      refine ⟨(saveIniLoop main ++ saveIniLoop groups).length + 2 - N - main.length, ?_⟩
      simp only [List.length_append]
      omega
    rw [hf]
    have e : nil = .mk false [] [] := rfl
    rw [e, hb (f + N), List.nil_append, h3 f]
  · rw [sameTree_iff]
    have hca : ∀ xs ys : List (Str × PN), clearAll (xs ++ ys) = clearAll xs ++ clearAll ys := by
      intro xs ys
      induction xs with
      | nil => rfl
      | cons x xs ih => obtain ⟨k, n⟩ := x; simp [clearAll, ih]
    simp only [clear, hca, h1, plainItems_clear h.main_items.leaf]

/-- Every text is read or rejected; there is no hang and no undefined behaviour. -/
theorem C29_total (text : Str) : (∃ n, loadIni text = .ok n) ∨ loadIni text = .throws .flutError := by
  refine iniLoop_total _ _ _ _ (fun _ => ?_) (by omega)
  have := (skipDelims_spec { rest := text, delims := defaultDelims : CharStream }).1.1
  obtain ⟨u, hu⟩ := this
  have := congrArg List.length hu
  simp only [List.length_append] at this
  show (skipDelims { rest := text, delims := defaultDelims : CharStream }).rest.length + 2 ≤ text.length + 2
  omega

/-- A comment line hides the line after it too. -/
theorem C29_comment_refuted : ∃ a b, loadIni b!"# note\na=1\nb=2\n" = .ok a ∧ loadIni b!"a=1\nb=2\n" = .ok b ∧
    ¬ SameTree a b := by
  refine ⟨_, _, rfl, rfl, ?_⟩
  rw [sameTree_iff, ← eqv_iff]
  decide

/-- This is so for every comment and every non-blank line after it, wherever they are. -/
theorem C29_comment_swallows (fuel : Nat) (w L R : Str) (c : Byte) (root : PN) (cur : Option Nat) (hw : OneLine w)
    (hc : ¬ IsSpace c) (hL : OneLine (c :: L)) :
    iniLoop (fuel + 1) (ofString (b!"#" ++ w ++ b!"\n" ++ (c :: L) ++ b!"\n" ++ R)) root cur =
      iniLoop fuel (ofString R) root cur := by
  have hcom : OneLine (35 :: w) := by
    intro d hd
    rcases List.mem_cons.1 hd with rfl | hd
    · decide
    · exact hw d hd
  obtain ⟨hg, hgl⟩ := getLine_line (R := (c :: L) ++ 10 :: R) hcom (by decide)
  obtain ⟨-, hgl2⟩ := getLine_line (R := R) hL hc
  have htext : b!"#" ++ w ++ b!"\n" ++ (c :: L) ++ b!"\n" ++ R = 35 :: w ++ 10 :: ((c :: L) ++ 10 :: R) := by simp
  obtain ⟨line, hline, a, b, h1, h2, h3, h4, -⟩ := trimStr_isTrim (35 :: w) defaultTrim
  have ha : a = [] := by
    cases a with
    | nil => rfl
    | cons x xs =>
      simp at h1
      have := h2 x (by simp)
      rw [← h1.1] at this
      exact absurd this (by decide)
  subst ha
  have hhead : line.head? = some 35 := by
    cases line with
    | nil =>
      simp at h1
      have := h3 35 (by rw [← h1]; simp)
      exact absurd this (by decide)
    | cons x xs => simp at h1; simp [h1.1]
  have hne : line.length ≠ 0 := by
    intro h
    rw [List.length_eq_zero_iff] at h
    rw [h] at hhead
    simp at hhead
  rw [htext, iniLoop, hg]
  simp only [if_true, hgl, hline, Res.bind_ok, hgl2]
  rw [if_neg hne, if_pos hhead]

/-- The order of the document matters: a key/value pair after a group ends up in the group. -/
theorem C29_order_refuted : ∃ m, loadIni (saveIni (.mk false [] [(b!"g", .mk false [] [(b!"a", leaf b!"1")]),
    (b!"m", leaf b!"2")])) = .ok m ∧ (kids m).length = 1 := ⟨_, rfl, rfl⟩

/-- An item without value is lost. -/
theorem C29_empty_value_refuted : ∃ m, loadIni (saveIni (.mk false [] [(b!"m", leaf b!"")])) = .ok m ∧
    (kids m).length = 0 := ⟨_, rfl, rfl⟩

example : IniDoc (.mk false [] [(b!"top key", leaf b!"1 = [x]"), (b!"[g", .mk false [] [(b!"a", leaf b!""),
    (b!"b", leaf b!"#2")])]) [(b!"top key", leaf b!"1 = [x]")]
    [(b!"[g", .mk false [] [(b!"a", leaf b!""), (b!"b", leaf b!"#2")])] where
  no_value := rfl
  parts := rfl
  main_items := ⟨by simp [kids, leaf], by
    intro kn h; simp at h; subst h
    exact ⟨by simp [OneLine], by decide, by decide, by decide, by simp [OneLine, leaf, PN.value], by decide, by decide⟩,
    by simp⟩
  main_value := by simp [leaf, PN.value]
  groups := by
    intro kn h; simp at h; subst h
    refine ⟨by simp, by simp [OneLine], rfl, by simp [kids], ⟨by simp [kids, leaf], ?_, by simp [kids]⟩⟩
    intro kn h
    simp [kids] at h
    rcases h with rfl | rfl
    · exact ⟨by simp [OneLine], by decide, by decide, by decide, by simp [OneLine, leaf, PN.value], by decide, by decide⟩
    · exact ⟨by simp [OneLine], by decide, by decide, by decide, by simp [OneLine, leaf, PN.value], by decide, by decide⟩

end Flut
