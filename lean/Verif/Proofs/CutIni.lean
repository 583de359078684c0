import Verif.Proofs.Ini
import Verif.Proofs.CutProp

/-! # Lemmas for ini files that were not saved completely -/

namespace Flut

open Spec PN CharStream

theorem oneLine_prefix {a b : Str} (h : a <+: b) (hb : OneLine b) : OneLine a := fun c hc => hb c (h.subset hc)

/-- The last line of a file, without a line break. -/
theorem getLine_last {c : Byte} {L : Str} (hl : OneLine (c :: L)) (hc : ¬ IsSpace c) :
    (ofString (c :: L)).good = true ∧ ∃ s : CharStream, (ofString (c :: L)).getLine = (c :: L, s) ∧ s.good = false := by
  have h0 : strchr defaultDelims c = false := by
    rw [Bool.eq_false_iff]
    intro h
    rcases defaultDelims_space.1 h with h | h
    · exact (hl c (by simp)).2.2 h
    · exact hc h
  rw [ofString_good h0]
  refine ⟨rfl, ?_⟩
  have ht : (c :: L).takeWhile (fun c => c != 0 && c != 13 && c != 10) = c :: L := by
    have := List.takeWhile_append_of_pos (p := fun c : Byte => c != 0 && c != 13 && c != 10) (l₁ := c :: L) (l₂ := [])
      (by intro d hd; have := hl d hd; simp [this])
    simpa using this
  simp only [getLine, ht]
  refine ⟨_, rfl, ?_⟩
  simp only [processEnd, List.length_cons, Nat.succ_ne_zero, if_false]
  simp [skipDelims, testEof, good]

theorem iniLoop_not_good {s : CharStream} (h : s.good = false) (fuel : Nat) (root : PN) (cur : Option Nat) :
    iniLoop (fuel + 1) s root cur = .ok root := by
  simp [iniLoop, h]

theorem trimStr_right {t b : Str} (ht : Trimmed t) (hb : ∀ c ∈ b, IsSpace c) : trimStr (t ++ b) = .ok t := by
  simpa using trim_trimmed [] b ht (by simp) hb

/-- A last line is read like one with a line break, and blanks at its end do not matter. -/
theorem iniLoop_last {t b : Str} (h0 : t ≠ []) (ht : Trimmed t) (hb : ∀ c ∈ b, IsSpace c) (hl : OneLine (t ++ b))
    (hn : t.head? ≠ some 35) (fuel : Nat) (root : PN) (cur : Option Nat) :
    iniLoop (fuel + 2) (ofString (t ++ b)) root cur = iniLoop (fuel + 2) (ofString (t ++ [10])) root cur := by
  cases t with
  | nil => exact absurd rfl h0
  | cons c L =>
    have hc : ¬ IsSpace c := ht.1 c (by simp)
    obtain ⟨g1, s, g2, g3⟩ := getLine_last (L := L ++ b) hl hc
    have hl' : OneLine (c :: L) := oneLine_prefix (List.prefix_append _ _) hl
    obtain ⟨q1, q2⟩ := getLine_line (R := []) hl' hc
    have q3 : (ofString []).good = false := by decide
    rw [List.cons_append, iniLoop, g1, g2, iniLoop, q1, q2]
    simp only [if_true]
    rw [← List.cons_append, trimStr_right ht hb, trimmed_trimStr ht]
    simp only [Res.bind_ok]
    have hz : (c :: L).length ≠ 0 := by simp
    simp only [if_neg hz, if_neg hn]
    simp only [iniLoop_not_good g3, iniLoop_not_good q3]

/-- A last line without equals sign that is not a group header is an error. -/
theorem iniLoop_no_eq {t b : Str} (h0 : t ≠ []) (ht : Trimmed t) (hb : ∀ c ∈ b, IsSpace c) (hl : OneLine (t ++ b))
    (hn : t.head? ≠ some 35) (hh : ¬ (t.head? = some 91 ∧ t.getLast? = some 93)) (he : 61 ∉ t) (fuel : Nat) (root : PN)
    (cur : Option Nat) :
    iniLoop (fuel + 2) (ofString (t ++ b)) root cur = .throws .flutError := by
  cases t with
  | nil => exact absurd rfl h0
  | cons c L =>
    have hc : ¬ IsSpace c := ht.1 c (by simp)
    obtain ⟨g1, s, g2, g3⟩ := getLine_last (L := L ++ b) hl hc
    have hf : makeKeyValueStr (c :: L) = .ok (c :: L, []) := by
      have : findFirst (inSet b!"=") (c :: L) = none := by
        rw [findFirst_eq_none]
        intro d hd
        rw [Bool.eq_false_iff]
        intro h
        have hm : d ∈ cstr b!"=" := inSet_iff.1 h
        have e : cstr b!"=" = [61] := by decide
        rw [e] at hm
        simp only [List.mem_cons, List.not_mem_nil, or_false] at hm
        exact he (hm ▸ hd)
      rw [makeKeyValueStr, this]
    rw [List.cons_append, iniLoop, g1, g2]
    simp only [if_true]
    rw [← List.cons_append, trimStr_right ht hb]
    simp only [Res.bind_ok]
    rw [if_neg (by simp), if_neg hn, if_neg (fun h => hh h.2), hf]
    simp

theorem iniLines_eq : ∀ cs : List (Str × PN), iniLines cs = saveIniItems cs
  | [] => rfl
  | (k, n) :: cs => by rw [iniLines, saveIniItems, iniLines_eq cs]

theorem saveIniLoop_main : ∀ {cs : List (Str × PN)}, (∀ kn ∈ cs, kids kn.2 = []) → (∀ kn ∈ cs, kn.2.value ≠ []) →
    saveIniLoop cs = saveIniItems cs
  | [], _, _ => rfl
  | (k, .mk a v ds) :: cs, h1, h2 => by
    have e1 := h1 _ List.mem_cons_self
    have e2 := h2 _ List.mem_cons_self
    simp only [kids, PN.value] at e1 e2
    subst e1
    rw [saveIniLoop, saveIniItems, saveIniLoop_main (fun x hx => h1 x (by simp [hx])) (fun x hx => h2 x (by simp [hx]))]
    simp [PN.size, PN.children, hasValue, PN.value, e2]

theorem length_saveIniItems : ∀ cs : List (Str × PN), 2 * cs.length ≤ (saveIniItems cs).length
  | [] => by simp
  | (k, n) :: cs => by
    have := length_saveIniItems cs
    simp only [saveIniItems, List.length_cons, List.length_append, List.length_nil]
    omega

theorem last_saveIniItems : ∀ {cs : List (Str × PN)}, cs ≠ [] → (saveIniItems cs).getLast? = some 10
  | [], h => absurd rfl h
  | [(k, n)], _ => by rw [saveIniItems, saveIniItems, List.append_nil]; exact getLast?_append_some rfl
  | (k, n) :: x :: cs, _ => by rw [saveIniItems]; exact getLast?_append_some (last_saveIniItems (by simp))

theorem cutInName_append {a u : Str} (ha : a.getLast? = some 10) (h : CutInName u) : CutInName (a ++ u) := by
  obtain ⟨l, w, rfl, h1, h2⟩ := h
  refine ⟨a ++ l, w, by simp, .inr ?_, h2⟩
  rcases h1 with rfl | h1
  · simpa using ha
  · exact getLast?_append_some h1

theorem sameTree_leaf {n : PN} (h : kids n = []) : SameTree (leaf n.value) n := by
  obtain ⟨a, v, ds⟩ := n
  simp only [kids] at h
  subst h
  rw [sameTree_iff]; rfl

/-- The items of a group or of the document itself: `ctx` is the tree, `cur` the group. -/
theorem iniCut_items (cur : Option Nat) (ctx : Bool → List (Str × PN) → PN)
    (hctx : ∀ b done k v, k ∉ done.map Prod.fst → iniSet k v cur (ctx b done) = ctx true (done ++ [(k, leaf v)]))
    (items : List (Str × PN)) : ∀ (u : Str) (b : Bool) (done : List (Str × PN)),
    (∀ kn ∈ items, kids kn.2 = []) → (∀ kn ∈ items, IniItem kn.1 kn.2.value) → (∀ kn ∈ items, kn.1.head? ≠ some 91) →
    ((done ++ items).map Prod.fst).Nodup → u <+: saveIniItems items → ∀ fuel, u.length + 2 ≤ fuel →
    (iniLoop fuel (ofString u) (ctx b done) cur = .throws .flutError ∧ CutInName u) ∨
    ∃ b' cs, iniLoop fuel (ofString u) (ctx b done) cur = .ok (ctx b' (done ++ cs)) ∧ CutItems u cs items := by
  induction items with
  | nil =>
    intro u b done _ _ _ _ hu fuel hf
    have : u = [] := by simpa [saveIniItems] using hu
    subst this
    obtain ⟨f, rfl⟩ : ∃ f, fuel = f + 1 := ⟨fuel - 1, by omega⟩
    exact .inr ⟨b, [], by rw [iniLoop_end, List.append_nil], .stop⟩
  | cons x xs ih =>
    obtain ⟨k, n⟩ := x
    intro u b done h1 h2 h3 h4 hu fuel hf
    have hi : IniItem k n.value := h2 _ List.mem_cons_self
    have hb : k.head? ≠ some 91 := h3 _ List.mem_cons_self
    have hl : kids n = [] := h1 _ List.mem_cons_self
    have hnew : k ∉ done.map Prod.fst := by
      intro hm
      rw [List.map_append, List.nodup_append] at h4
      exact h4.2.2 k hm k (by simp) rfl
    obtain ⟨f, rfl⟩ : ∃ f, fuel = f + 2 := ⟨fuel - 2, by omega⟩
    have e : saveIniItems ((k, n) :: xs) = k ++ (61 :: (n.value ++ (10 :: saveIniItems xs))) := by
      simp [saveIniItems]
    rw [e] at hu
    have val : ∀ u, u <+: n.value → ∃ b' cs, iniLoop (f + 2) (ofString (k ++ 61 :: u)) (ctx b done) cur =
        .ok (ctx b' (done ++ cs)) ∧ CutItems (k ++ 61 :: u) cs ((k, n) :: xs) := by
      intro u hv
      obtain ⟨w, bl, rfl, hbl, hwl⟩ := right_trim u
      have hwone : OneLine (w ++ bl) := oneLine_prefix hv hi.value_line
      have hwt : Trimmed w := by
        refine ⟨fun c hc => hi.value_trim.1 c ?_, hwl⟩
        obtain ⟨r, hr⟩ := hv
        cases w with
        | nil => simp at hc
        | cons d w => rw [← hr]; simpa using hc
      have hit : IniItem k w := ⟨hi.key_line, hi.key_trim, hi.key_eq, hi.key_comment,
        oneLine_prefix (List.prefix_append _ _) hwone, hwt, fun h => hb h.1⟩
      have htt : Trimmed (k ++ 61 :: w) := by
        constructor
        · intro c hc
          cases k with
          | nil => simp at hc; subst hc; decide
          | cons d k => exact hi.key_trim.1 c (by simpa using hc)
        · intro c hc
          cases hw : w.getLast? with
          | none => simp at hw; subst hw; simp at hc; subst hc; decide
          | some x =>
            simp only [List.getLast?_append, List.getLast?_cons, hw] at hc
            simp at hc
            subst hc
            exact hwl x (by rw [hw]; rfl)
      have hol : OneLine ((k ++ 61 :: w) ++ bl) := by
        intro d hd
        simp only [List.mem_append, List.mem_cons] at hd
        rcases hd with (hd | rfl | hd) | hd
        · exact hi.key_line d hd
        · decide
        · exact hwone d (by simp [hd])
        · exact hwone d (by simp [hd])
      have hl1 := iniLoop_last (t := k ++ 61 :: w) (b := bl) (by simp) htt hbl hol (by
        cases k with
        | nil => simp
        | cons d k => simpa using hi.key_comment) f (ctx b done) cur
      have hl2 := iniLoop_item (f + 1) k w [] (ctx b done) cur hit
      have e1 : k ++ 61 :: (w ++ bl) = (k ++ 61 :: w) ++ bl := by simp
      have e2 : (k ++ 61 :: w) ++ [10] = k ++ b!"=" ++ w ++ b!"\n" ++ [] := by simp
      rw [e2, hl2, iniLoop_end, hctx _ _ _ _ hnew] at hl1
      refine ⟨true, [(k, leaf w)], by rw [e1, hl1], ?_⟩
      have := CutItems.value (k := k) (n := n) (cs := xs) hbl hv
      simpa [leaf] using this
    rcases prefix_append_cases hu with hk | ⟨u, rfl, hu'⟩
    · -- in the key
      by_cases hne : u = []
      · subst hne
        exact .inr ⟨b, [], by rw [iniLoop_end, List.append_nil], .stop⟩
      obtain ⟨t, bl, rfl, hbl, htl⟩ := right_trim u
      obtain ⟨c, L, hcL⟩ : ∃ c L, k = c :: L := by
        cases k with
        | nil => exact absurd (List.prefix_nil.1 hk) hne
        | cons c L => exact ⟨c, L, rfl⟩
      have ht0 : t ≠ [] := by
        rintro rfl
        cases bl with
        | nil => simp at hne
        | cons d bl =>
          rw [hcL, List.nil_append] at hk
          have := (List.cons_prefix_cons.1 hk).1
          subst this
          exact hi.key_trim.1 d (by rw [hcL]; simp) (hbl d (by simp))
      have hhd : t.head? = k.head? := by
        obtain ⟨r, rfl⟩ := hk
        cases t with
        | nil => exact absurd rfl ht0
        | cons d t => simp
      have htr : Trimmed t := ⟨fun c hc => hi.key_trim.1 c (by rw [← hhd]; exact hc), htl⟩
      have hone : OneLine (t ++ bl) := oneLine_prefix hk hi.key_line
      have heq : 61 ∉ t ++ bl := fun h => hi.key_eq (hk.subset h)
      refine .inl ⟨iniLoop_no_eq ht0 htr hbl hone (by rw [hhd]; exact hi.key_comment) (fun h => hb (by rw [← hhd]; exact h.1))
        (fun h => heq (List.mem_append_left _ h)) _ _ _, [], t ++ bl, rfl, .inl rfl, hne, hone, heq, ?_⟩
      rintro ⟨h, -⟩
      cases t with
      | nil => exact absurd rfl ht0
      | cons d t => exact hb (by rw [← hhd]; simpa using h)
    · rcases prefix_cons_cases hu' with rfl | ⟨u, rfl, hu2⟩
      · by_cases hne : k = []
        · subst hne
          exact .inr ⟨b, [], by rw [List.append_nil, iniLoop_end, List.append_nil], .stop⟩
        rw [List.append_nil]
        have := iniLoop_no_eq (b := []) hne hi.key_trim (by simp) (by simpa using hi.key_line) hi.key_comment
          (fun h => hb h.1) hi.key_eq f (ctx b done) cur
        rw [List.append_nil] at this
        exact .inl ⟨this, [], k, rfl, .inl rfl, hne, hi.key_line, hi.key_eq, fun h => hb h.1⟩
      · rcases prefix_append_cases hu2 with hv | ⟨u, rfl, hu3⟩
        · exact .inr (val u hv)
        · rcases prefix_cons_cases hu3 with rfl | ⟨u, rfl, hu4⟩
          · rw [List.append_nil]
            exact .inr (val _ (List.prefix_refl _))
          · have e2 : k ++ 61 :: (n.value ++ 10 :: u) = k ++ b!"=" ++ n.value ++ b!"\n" ++ u := by simp
            rw [e2] at hf ⊢
            rw [iniLoop_item (f + 1) k n.value u _ _ hi, hctx _ _ _ _ hnew]
            have hf' : u.length + 2 ≤ f + 1 := by
              simp only [List.length_append, List.length_cons] at hf
              omega
            rcases ih u true (done ++ [(k, leaf n.value)]) (fun x hx => h1 x (by simp [hx])) (fun x hx => h2 x (by simp [hx]))
              (fun x hx => h3 x (by simp [hx])) (by simpa using h4) hu4 (f + 1) hf' with ⟨q1, q2⟩ | ⟨b', cs, q1, q2⟩
            · exact .inl ⟨q1, cutInName_append (getLast?_append_some rfl) q2⟩
            · exact .inr ⟨b', (k, leaf n.value) :: cs, by rw [q1]; simp, .whole (sameTree_leaf hl) q2⟩

theorem cutItems_whole : ∀ {cs : List (Str × PN)}, (∀ kn ∈ cs, kids kn.2 = []) → CutItems (iniLines cs) (plainItems cs) cs
  | [], _ => .stop
  | (k, n) :: cs, h => by
    rw [iniLines]
    exact .whole (sameTree_leaf (h _ List.mem_cons_self)) (cutItems_whole fun x hx => h x (by simp [hx]))

theorem iniCut_groups (gs : List (Str × PN)) : ∀ (u : Str) (a : Bool) (pre : List (Str × PN)) (cur : Option Nat),
    (∀ kn ∈ gs, IniGroup kn.1 kn.2) → (∀ kn ∈ gs, ∀ x ∈ kids kn.2, x.1.head? ≠ some 91) →
    (∀ kn ∈ gs, 61 ∉ kn.1 ∧ 93 ∉ kn.1) → u <+: saveIniLoop gs → ∀ fuel, u.length + 2 ≤ fuel →
    (iniLoop fuel (ofString u) (.mk a [] pre) cur = .throws .flutError ∧ CutInName u) ∨
    ∃ gs', iniLoop fuel (ofString u) (.mk a [] pre) cur = .ok (.mk a [] (pre ++ gs')) ∧ CutGroups u gs' gs := by
  induction gs with
  | nil =>
    intro u a pre cur _ _ _ hu fuel hf
    have : u = [] := by simpa [saveIniLoop] using hu
    subst this
    obtain ⟨f, rfl⟩ : ∃ f, fuel = f + 1 := ⟨fuel - 1, by omega⟩
    exact .inr ⟨[], by rw [iniLoop_end, List.append_nil], .stop⟩
  | cons x xs ih =>
    obtain ⟨k, a0, v, ks⟩ := x
    intro u a pre cur h hkb hnm hu fuel hf
    have hg := h _ List.mem_cons_self
    have hval : v = [] := hg.no_value
    have hne : ks ≠ [] := hg.non_empty
    have hitems : IniItems ks := hg.items
    have hkl : OneLine k := hg.name_line
    obtain ⟨hn1, hn2⟩ : 61 ∉ k ∧ 93 ∉ k := hnm _ List.mem_cons_self
    obtain ⟨f, rfl⟩ : ∃ f, fuel = f + 2 := ⟨fuel - 2, by omega⟩
    have e : saveIniLoop ((k, .mk a0 v ks) :: xs) = 91 :: (k ++ (93 :: 10 :: (saveIniItems ks ++ saveIniLoop xs))) := by
      have : 0 < ks.length := by cases ks <;> simp_all
      simp [saveIniLoop, PN.size, PN.children, this]
    rw [e] at hu
    have bad : ∀ u, u <+: k → (iniLoop (f + 2) (ofString (91 :: u)) (.mk a [] pre) cur = .throws .flutError ∧ CutInName (91 :: u)) := by
      intro u hk
      obtain ⟨t, bl, ht, hbl, htl⟩ := right_trim (91 :: u)
      have ht0 : t ≠ [] := by
        rintro rfl
        cases bl with
        | nil => simp at ht
        | cons d bl =>
          simp only [List.nil_append, List.cons.injEq] at ht
          have := hbl d (by simp)
          rw [← ht.1] at this
          revert this; decide
      have hhd : t.head? = some 91 := by
        cases t with
        | nil => exact absurd rfl ht0
        | cons d t => simp only [List.cons_append, List.cons.injEq] at ht; simp [ht.1]
      have hone : OneLine (91 :: u) := by
        intro d hd
        rcases List.mem_cons.1 hd with rfl | hd
        · decide
        · exact hkl d (hk.subset hd)
      have heq : 61 ∉ 91 :: u := by
        intro hm
        rcases List.mem_cons.1 hm with hm | hm
        · revert hm; decide
        · exact hn1 (hk.subset hm)
      have last93 : ¬ ((91 :: u).head? = some 91 ∧ (91 :: u).getLast? = some 93) := by
        rintro ⟨-, hlast⟩
        rcases List.mem_cons.1 (List.mem_of_getLast? hlast) with hm | hm
        · revert hm; decide
        · exact hn2 (hk.subset hm)
      refine ⟨?_, [], 91 :: u, rfl, .inl rfl, by simp, hone, heq, last93⟩
      have hmem : ∀ d ∈ t, d ∈ 91 :: u := fun d hd => by rw [ht]; simp [hd]
      rw [ht]
      refine iniLoop_no_eq ht0 ⟨fun c hc => ?_, htl⟩ hbl (by rw [← ht]; exact hone) (by rw [hhd]; decide) ?_ (fun h => heq (hmem _ h)) _ _ _
      · rw [hhd] at hc; simp at hc; subst hc; decide
      · rintro ⟨-, hlast⟩
        rcases List.mem_cons.1 (hmem _ (List.mem_of_getLast? hlast)) with hm | hm
        · revert hm; decide
        · exact hn2 (hk.subset hm)
    rcases prefix_cons_cases hu with rfl | ⟨u, rfl, hu1⟩
    · exact .inr ⟨[], by rw [iniLoop_end, List.append_nil], .stop⟩
    rcases prefix_append_cases hu1 with hk | ⟨u, rfl, hu2⟩
    · exact .inl (bad u hk)
    rcases prefix_cons_cases hu2 with rfl | ⟨u, rfl, hu3⟩
    · rw [List.append_nil]
      exact .inl (bad k (List.prefix_refl _))
    rcases prefix_cons_cases hu3 with rfl | ⟨u, rfl, hu4⟩
    · -- behind the name
      have htt : Trimmed (91 :: (k ++ [93])) := by
        constructor
        · intro d hd; simp at hd; subst hd; decide
        · intro d hd
          rw [List.getLast?_cons, List.getLast?_append] at hd
          simp at hd; subst hd; decide
      have hone : OneLine (91 :: (k ++ [93])) := by
        intro d hd
        simp only [List.mem_append, List.mem_cons, List.not_mem_nil, or_false] at hd
        rcases hd with rfl | hd | rfl
        · decide
        · exact hkl d hd
        · decide
      have hl1 := iniLoop_last (b := []) (by simp) htt (by simp) (by simpa using hone) (by simp) f (.mk a [] pre) cur
      have hl2 := iniLoop_group (f + 1) k [] (.mk a [] pre) cur hg.name hkl
      have e2 : (91 :: (k ++ [93])) ++ [10] = b!"[" ++ k ++ b!"]" ++ b!"\n" ++ [] := by simp
      rw [e2, hl2, iniLoop_end, List.append_nil, pushBack] at hl1
      refine .inr ⟨[(k, .mk false [] [])], hl1, ?_⟩
      have := CutGroups.name (k := k) (n := .mk a0 v ks) (gs := xs)
      simpa using this
    · have e2 : 91 :: (k ++ 93 :: 10 :: u) = b!"[" ++ k ++ b!"]" ++ b!"\n" ++ u := by simp
      have hfu : u.length + 2 ≤ f + 1 := by
        simp only [List.length_append, List.length_cons] at hf
        omega
      have e4 : nil.clear = .mk false [] [] := rfl
      have e5 : ∀ w : Str, b!"[" ++ k ++ b!"]" ++ b!"\n" ++ w = b!"[" ++ k ++ b!"]\n" ++ w := by simp
      rw [e2, iniLoop_group (f + 1) k u _ _ hg.name hkl, pushBack]
      simp only [PN.children, e4]
      rcases prefix_append_cases' hu4 with ⟨hi, -⟩ | ⟨u, rfl, hu5⟩
      · rcases iniCut_items (some pre.length) (fun b done => .mk a [] (pre ++ [(k, .mk b [] done)]))
          (fun b done k' v' hn => by simp only [iniSet, modifyAt_at, set_new hn]; rfl) ks u false [] hitems.leaf hitems.item
          (hkb _ List.mem_cons_self) (by simpa using hitems.distinct) hi (f + 1) hfu with ⟨q1, q2⟩ | ⟨b', cs, q1, q2⟩
        · exact .inl ⟨q1, cutInName_append (getLast?_append_some rfl) q2⟩
        · refine .inr ⟨[(k, .mk b' [] cs)], q1, ?_⟩
          rw [e5]
          exact .items rfl q2
      · obtain ⟨b', hb⟩ := iniLoop_items ks u k a false pre [] hitems.leaf hitems.item (by simpa using hitems.distinct)
        have hlen := length_saveIniItems ks
        obtain ⟨f', hf'⟩ : ∃ f', f + 1 = f' + ks.length := ⟨f + 1 - ks.length, by simp only [List.length_append] at hfu; omega⟩
        rw [hf', hb]
        rcases ih u a (pre ++ [(k, .mk b' [] (plainItems ks))]) (some pre.length) (fun x hx => h x (by simp [hx]))
          (fun x hx => hkb x (by simp [hx])) (fun x hx => hnm x (by simp [hx])) hu5 f' (by
            simp only [List.length_append] at hfu; omega) with ⟨q1, q2⟩ | ⟨gs', q1, q2⟩
        · refine .inl ⟨q1, ?_⟩
          rw [← List.append_assoc]
          exact cutInName_append (getLast?_append_some (last_saveIniItems hne)) q2
        · refine .inr ⟨(k, .mk b' [] (plainItems ks)) :: gs', by rw [List.nil_append, q1]; simp, ?_⟩
          rw [e5, ← List.append_assoc]
          have := CutGroups.whole (k := k) (n := .mk a0 v ks) (n' := .mk b' [] (plainItems ks)) (by
            rw [sameTree_iff]; simp only [clear, plainItems_clear hitems.leaf, hval]) q2
          rw [kids, iniLines_eq] at this
          exact this

end Flut
