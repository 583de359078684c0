import Verif.Model.Ini
import Verif.Spec.Ini
import Verif.Proofs.PropApi
import Verif.Proofs.CharStreamOps
import Verif.Props.Strings

/-! # Lemmas for ini files -/

namespace Flut

open Spec PN CharStream

theorem defaultDelims_space {c : Byte} : strchr defaultDelims c = true ↔ c = 0 ∨ IsSpace c := by
  revert c
  apply forall_byte
  decide +kernel

theorem trimmed_trimStr {s : Str} (h : Trimmed s) : trimStr s = .ok s := by
  have e : ∀ c : Byte, c ∈ cstr defaultTrim → IsSpace c := by
    intro c hc
    have : cstr defaultTrim = [32, 9, 13, 10, 12, 11] := by decide
    rw [this] at hc
    simp only [List.mem_cons, List.not_mem_nil, or_false] at hc
    rcases hc with h | h | h | h | h | h <;> subst h <;> decide
  exact trimStr_eq_self (fun c hc hm => h.1 c hc (e c hm)) (fun c hc hm => h.2 c hc (e c hm))

theorem ofString_good {c : Byte} {L : Str} (h : strchr defaultDelims c = false) :
    ofString (c :: L) = { rest := c :: L, delims := defaultDelims } := by
  simp [ofString, CharStream.init, skipDelims, testEof, h]

theorem getLine_line {c : Byte} {L R : Str} (hl : OneLine (c :: L)) (hc : ¬ IsSpace c) :
    (ofString (c :: L ++ 10 :: R)).good = true ∧ (ofString (c :: L ++ 10 :: R)).getLine = (c :: L, ofString R) := by
  have h0 : strchr defaultDelims c = false := by
    rw [Bool.eq_false_iff]
    intro h
    rcases defaultDelims_space.1 h with h | h
    · exact (hl c (by simp)).2.2 h
    · exact hc h
  rw [List.cons_append, ofString_good h0]
  refine ⟨rfl, ?_⟩
  have ht : ((c :: L) ++ 10 :: R).takeWhile (fun c => c != 0 && c != 13 && c != 10) = c :: L := by
    rw [List.takeWhile_append_of_pos]
    · simp
    · intro d hd
      have := hl d hd
      simp [this]
  simp only [getLine, ← List.cons_append, ht, processEnd]
  refine Prod.ext rfl ?_
  simp only [List.length_cons, Nat.succ_ne_zero, if_false]
  have hd : List.drop (L.length + 1) (c :: L ++ 10 :: R) = 10 :: R := by simp
  rw [hd]
  simp [ofString, CharStream.init, skipDelims, strchr, defaultDelims]

theorem iniLoop_end (fuel : Nat) (root : PN) (cur : Option Nat) :
    iniLoop (fuel + 1) (ofString []) root cur = .ok root := by
  simp [iniLoop, ofString, CharStream.init, skipDelims, testEof, good]

theorem iniLoop_item (fuel : Nat) (k v R : Str) (root : PN) (cur : Option Nat) (h : IniItem k v) :
    iniLoop (fuel + 1) (ofString (k ++ b!"=" ++ v ++ b!"\n" ++ R)) root cur =
      iniLoop fuel (ofString R) (iniSet k v cur root) cur := by
  obtain ⟨c, L, hL⟩ : ∃ c L, k ++ 61 :: v = c :: L := by cases k <;> simp
  have hline : OneLine (c :: L) := by
    rw [← hL]
    intro d hd
    simp only [List.mem_append, List.mem_cons] at hd
    rcases hd with hd | rfl | hd
    · exact h.key_line d hd
    · decide
    · exact h.value_line d hd
  have htrim : Trimmed (c :: L) := by
    rw [← hL]
    constructor
    · intro d hd
      cases k with
      | nil => simp at hd; subst hd; decide
      | cons x xs => simp at hd; subst hd; exact h.key_trim.1 x (by simp)
    · intro d hd
      cases hv : v.getLast? with
      | none => simp at hv; subst hv; simp at hd; subst hd; decide
      | some x =>
        simp only [List.getLast?_append, List.getLast?_cons, hv] at hd
        simp at hd
        subst hd
        exact h.value_trim.2 x hv
  obtain ⟨hg, hgl⟩ := getLine_line (R := R) hline (htrim.1 c (by simp))
  have htext : k ++ b!"=" ++ v ++ b!"\n" ++ R = c :: L ++ 10 :: R := by rw [← hL]; simp
  have hhead : (c :: L).head? ≠ some 35 := by
    rw [← hL]
    cases k with
    | nil => simp
    | cons x xs => simpa using h.key_comment
  have hgroup : ¬ ((c :: L).length > 2 ∧ (c :: L).head? = some 91 ∧ (c :: L).getLast? = some 93) := by
    rw [← hL]
    rintro ⟨-, h1, h2⟩
    apply h.header
    constructor
    · cases k with
      | nil => simp at h1
      | cons x xs => simpa using h1
    · cases hv : v.getLast? with
      | none => simp at hv; subst hv; simp at h2
      | some x => simpa [List.getLast?_append, List.getLast?_cons, hv] using h2
  obtain ⟨k', v', hkv, hk', hv'⟩ := C05_make_key_value k v 61 b!"=" (by decide) (by
    intro d hd hm
    have : d = 61 := by
      have e : cstr b!"=" = [61] := by decide
      rw [e] at hm
      simpa using hm
    exact h.key_eq (this ▸ hd))
  have e : ∀ s, Trimmed s → IsTrim (· ∈ [32, 9, 13, 10, 12, 11]) s s := by
    intro s hs
    refine ⟨[], [], by simp, by simp, by simp, fun c hc hm => hs.1 c hc ?_, fun c hc hm => hs.2 c hc ?_⟩ <;>
    · simp only [List.mem_cons, List.not_mem_nil, or_false] at hm
      rcases hm with h | h | h | h | h | h <;> subst h <;> decide
  have hk2 : k' = k := isTrim_unique hk' (e k h.key_trim)
  have hv2 : v' = v := isTrim_unique hv' (e v h.value_trim)
  subst hk2 hv2
  have hne : k' ≠ c :: L := by
    rw [← hL]
    intro he
    have := congrArg List.length he
    simp at this
  rw [hL] at hkv
  rw [htext, iniLoop, hg]
  simp only [if_true, hgl, trimmed_trimStr htrim, Res.bind_ok]
  rw [if_neg (by simp), if_neg hhead, if_neg hgroup, hkv, Res.bind_ok]
  simp [hne]

theorem iniLoop_group (fuel : Nat) (k R : Str) (root : PN) (cur : Option Nat) (hk : k ≠ []) (hl : OneLine k) :
    iniLoop (fuel + 1) (ofString (b!"[" ++ k ++ b!"]" ++ b!"\n" ++ R)) root cur =
      iniLoop fuel (ofString R) (pushBack k nil root) (some root.children.length) := by
  have hline : OneLine (91 :: (k ++ [93])) := by
    intro d hd
    simp only [List.mem_append, List.mem_cons, List.not_mem_nil, or_false] at hd
    rcases hd with rfl | hd | rfl
    · decide
    · exact hl d hd
    · decide
  have htrim : Trimmed (91 :: (k ++ [93])) := by
    constructor
    · intro d hd; simp at hd; subst hd; decide
    · intro d hd
      rw [List.getLast?_cons, List.getLast?_append] at hd
      simp at hd; subst hd; decide
  obtain ⟨hg, hgl⟩ := getLine_line (R := R) hline (by decide)
  have htext : b!"[" ++ k ++ b!"]" ++ b!"\n" ++ R = 91 :: (k ++ [93]) ++ 10 :: R := by simp
  have hpos : 0 < k.length := by cases k <;> simp_all
  rw [htext, iniLoop, hg]
  simp only [if_true, hgl, trimmed_trimStr htrim, Res.bind_ok]
  rw [if_neg (by simp), if_neg (by simp), if_pos (by
    refine ⟨by simp; omega, by simp, ?_⟩
    rw [List.getLast?_cons, List.getLast?_append]; simp)]
  have := substr_append_take (pre := [91]) (mid := k) (post := [93])
  have e : (91 :: (k ++ [93])).length - 2 = k.length := by simp
  rw [e]
  simp at this
  rw [this, Res.bind_ok]

/-- What reading gives for a list of items. -/
def plainItems (cs : List (Str × PN)) : List (Str × PN) := cs.map fun kn => (kn.1, leaf kn.2.value)

theorem plainItems_clear {cs : List (Str × PN)} (h : ∀ kn ∈ cs, kids kn.2 = []) :
    clearAll (plainItems cs) = clearAll cs := by
  induction cs with
  | nil => rfl
  | cons x xs ih =>
    obtain ⟨k, a, v, ks⟩ := x
    have h1 := h (k, .mk a v ks) (by simp)
    simp only [kids] at h1
    subst h1
    simp only [plainItems, List.map_cons, clearAll]
    rw [← plainItems, ih fun kn hk => h kn (by simp [hk])]
    rfl

theorem set_new {k : Str} {n : PN} {a : Bool} {v : Str} {cs : List (Str × PN)} (h : k ∉ cs.map Prod.fst) :
    set k n (.mk a v cs) = .mk true v (cs ++ [(k, n.clear)]) := by
  rcases set_cases k n a v cs with ⟨_, h2⟩ | ⟨pre, m, post, rfl, h1, h2⟩
  · exact h2
  · simp at h

theorem iniLoop_main (items : List (Str × PN)) : ∀ (R : Str) (a : Bool) (done : List (Str × PN)),
    (∀ kn ∈ items, kids kn.2 = []) → (∀ kn ∈ items, IniItem kn.1 kn.2.value) →
    ((done ++ items).map Prod.fst).Nodup → (∀ kn ∈ items, kn.2.value ≠ []) →
    ∃ b, ∀ fuel, iniLoop (fuel + items.length) (ofString (saveIniLoop items ++ R)) (.mk a [] done) none =
      iniLoop fuel (ofString R) (.mk b [] (done ++ plainItems items)) none := by
  induction items with
  | nil => intro R a done _ _ _ _; exact ⟨a, fun fuel => by simp [saveIniLoop, plainItems]⟩
  | cons x xs ih =>
    obtain ⟨k, a0, v, ks⟩ := x
    intro R a done h1 h2 h3 h4
    have hk := h1 (k, .mk a0 v ks) (by simp)
    simp only [kids] at hk
    subst hk
    have hi := h2 _ (List.mem_cons_self ..)
    have hv := h4 _ (List.mem_cons_self ..)
    simp only [PN.value] at hi hv
    have hnew : k ∉ done.map Prod.fst := by
      intro hm
      rw [List.map_append, List.nodup_append] at h3
      exact h3.2.2 k hm k (by simp) rfl
    obtain ⟨b, hb⟩ := ih R true (done ++ [(k, leaf v)]) (fun kn hk => h1 kn (by simp [hk]))
      (fun kn hk => h2 kn (by simp [hk])) (by simpa using h3) (fun kn hk => h4 kn (by simp [hk]))
    refine ⟨b, fun fuel => ?_⟩
    have e : saveIniLoop ((k, .mk a0 v []) :: xs) ++ R = k ++ b!"=" ++ v ++ b!"\n" ++ (saveIniLoop xs ++ R) := by
      simp [saveIniLoop, PN.size, PN.children, hasValue, PN.value, hv]
    rw [e, List.length_cons, ← Nat.add_assoc, iniLoop_item _ _ _ _ _ _ hi, iniSet, set_new hnew]
    have e2 : (leaf v).clear = leaf v := rfl
    rw [e2, hb]
    simp [plainItems, PN.value]

theorem iniLoop_items (items : List (Str × PN)) : ∀ (R name : Str) (a b : Bool)
    (pre done : List (Str × PN)),
    (∀ kn ∈ items, kids kn.2 = []) → (∀ kn ∈ items, IniItem kn.1 kn.2.value) →
    ((done ++ items).map Prod.fst).Nodup →
    ∃ b', ∀ fuel, iniLoop (fuel + items.length) (ofString (saveIniItems items ++ R)) (.mk a [] (pre ++ [(name, .mk b [] done)]))
        (some pre.length) =
      iniLoop fuel (ofString R) (.mk a [] (pre ++ [(name, .mk b' [] (done ++ plainItems items))])) (some pre.length) := by
  induction items with
  | nil => intro R name a b pre done _ _ _; exact ⟨b, fun fuel => by simp [saveIniItems, plainItems]⟩
  | cons x xs ih =>
    obtain ⟨k, a0, v, ks⟩ := x
    intro R name a b pre done h1 h2 h3
    have hi := h2 _ (List.mem_cons_self ..)
    simp only [PN.value] at hi
    have hnew : k ∉ done.map Prod.fst := by
      intro hm
      rw [List.map_append, List.nodup_append] at h3
      exact h3.2.2 k hm k (by simp) rfl
    obtain ⟨b', hb⟩ := ih R name a true pre (done ++ [(k, leaf v)]) (fun kn hk => h1 kn (by simp [hk]))
      (fun kn hk => h2 kn (by simp [hk])) (by simpa using h3)
    refine ⟨b', fun fuel => ?_⟩
    have e : saveIniItems ((k, .mk a0 v ks) :: xs) ++ R = k ++ b!"=" ++ v ++ b!"\n" ++ (saveIniItems xs ++ R) := by
      simp [saveIniItems, PN.value]
    have e2 : (leaf v).clear = leaf v := rfl
    rw [e, List.length_cons, ← Nat.add_assoc, iniLoop_item _ _ _ _ _ _ hi]
    simp only [iniSet, modifyAt_at, set_new hnew, e2]
    rw [hb]
    simp [plainItems, PN.value]

theorem iniLoop_groups (gs : List (Str × PN)) : ∀ (a : Bool) (pre : List (Str × PN)) (cur : Option Nat),
    (∀ kn ∈ gs, IniGroup kn.1 kn.2) →
    ∃ N gs', clearAll gs' = clearAll gs ∧ N ≤ (saveIniLoop gs).length + 1 ∧ ∀ fuel,
      iniLoop (fuel + N) (ofString (saveIniLoop gs)) (.mk a [] pre) cur = .ok (.mk a [] (pre ++ gs')) := by
  induction gs with
  | nil => intro a pre cur _; exact ⟨1, [], rfl, by simp, fun fuel => by rw [List.append_nil]; exact iniLoop_end fuel _ _⟩
  | cons x xs ih =>
    obtain ⟨k, a0, v, ks⟩ := x
    intro a pre cur h
    have hg := h _ (List.mem_cons_self ..)
    have hval : v = [] := hg.no_value
    have hne : ks ≠ [] := hg.non_empty
    have hitems : IniItems ks := hg.items
    obtain ⟨b', hb⟩ := iniLoop_items ks (saveIniLoop xs) k a false pre [] hitems.leaf hitems.item
      (by simpa using hitems.distinct)
    obtain ⟨N, gs', h1, h2, h3⟩ := ih a (pre ++ [(k, .mk b' [] (plainItems ks))]) (some pre.length)
      (fun kn hk => h kn (by simp [hk]))
    have e : saveIniLoop ((k, .mk a0 v ks) :: xs) =
        b!"[" ++ k ++ b!"]" ++ b!"\n" ++ (saveIniItems ks ++ saveIniLoop xs) := by
      have : 0 < ks.length := by cases ks <;> simp_all
      simp [saveIniLoop, PN.size, PN.children, this]
    have hlen : ks.length ≤ (saveIniItems ks).length := by
      clear hb hg hitems hne h e h1 h2 h3
      induction ks with
      | nil => simp
      | cons y ys ihy =>
        obtain ⟨k, n⟩ := y
        simp only [saveIniItems, List.length_cons, List.length_append, List.length_nil]
        omega
    refine ⟨N + ks.length + 1, (k, .mk b' [] (plainItems ks)) :: gs', ?_, ?_, fun fuel => ?_⟩
    · simp only [clearAll, h1, clear, plainItems_clear hitems.leaf, hval]
    · rw [e]; simp; omega
    · rw [e, ← Nat.add_assoc, iniLoop_group _ _ _ _ _ hg.name hg.name_line, pushBack]
      have e3 : fuel + (N + ks.length) = fuel + N + ks.length := by omega
      have e4 : nil.clear = .mk false [] [] := rfl
      simp only [PN.children, e4, e3]
      rw [hb, List.nil_append, h3]
      simp

/-- Every call returns: it never runs out of iterations and has no undefined behaviour. -/
theorem iniLoop_total (fuel : Nat) : ∀ (s : CharStream) (root : PN) (cur : Option Nat),
    (s.good = true → s.rest.length + 2 ≤ fuel) → 1 ≤ fuel → 
    (∃ n, iniLoop fuel s root cur = .ok n) ∨ iniLoop fuel s root cur = .throws .flutError := by
  induction fuel with
  | zero => intro s root cur _ h; omega
  | succ fuel ih =>
    intro s root cur hm _
    rw [iniLoop]
    cases hg : s.good with
    | false => exact Or.inl ⟨root, by simp⟩
    | true =>
      have hm := hm hg
      have hlen : ∀ t : CharStream, t.getLine.2.rest.length ≤ t.rest.length := by
        intro t
        simp only [getLine, processEnd]
        split
        · exact Nat.le_refl _
        · have := (skipDelims_spec { t with rest := t.rest.drop (t.rest.takeWhile fun c => c != 0 && c != 13 && c != 10).length }).1.1
          obtain ⟨u, hu⟩ := this
          have := congrArg List.length hu
          simp only [List.length_append, List.length_drop] at this
          omega
      have hlt : s.getLine.2.good = true → s.getLine.2.rest.length + 1 ≤ s.rest.length := by
        simp only [getLine, processEnd]
        split
        · simp [good]
        · intro _
          have := (skipDelims_spec { s with rest := s.rest.drop (s.rest.takeWhile fun c => c != 0 && c != 13 && c != 10).length }).1.1
          obtain ⟨u, hu⟩ := this
          have h2 := congrArg List.length hu
          have h3 : (s.rest.takeWhile fun c => c != 0 && c != 13 && c != 10).length ≤ s.rest.length :=
            (List.takeWhile_sublist _).length_le
          simp only [List.length_append, List.length_drop] at h2
          omega
      have hgood2 : ∀ t : CharStream, t.getLine.2.good = true → t.good = true := by
        intro t
        simp only [getLine, processEnd]
        split
        · simp [good]
        · simp only [skipDelims, testEof]
          split <;> simp [good]
      have next1 : s.getLine.2.good = true → s.getLine.2.rest.length + 2 ≤ fuel := fun h => by
        have := hlt h; omega
      have next2 : s.getLine.2.getLine.2.good = true → s.getLine.2.getLine.2.rest.length + 2 ≤ fuel := fun h => by
        have h1 := hlt (hgood2 _ h)
        have h2 := hlen s.getLine.2
        omega
      obtain ⟨line, hline, -⟩ := trimStr_isTrim s.getLine.1 defaultTrim
      simp only [if_true, hline, Res.bind_ok]
      have hf : 1 ≤ fuel := by omega
      split
      · exact ih _ _ _ next1 hf
      · split
        · exact ih _ _ _ next2 hf
        · split
          · rename_i h3
            rw [substr, if_neg (by omega), Res.bind_ok]
            exact ih _ _ _ next1 hf
          · have : ∃ kv, makeKeyValueStr line = .ok kv := by
              rw [makeKeyValueStr]
              split
              · exact ⟨_, rfl⟩
              · rename_i pos hp
                obtain ⟨pre, c, post, hpre, hlp, -, -⟩ := findFirst_eq_some.1 hp
                obtain ⟨k, hk, -⟩ := trimStr_isTrim (line.take pos) defaultTrim
                obtain ⟨v, hv, -⟩ := trimStr_isTrim (line.drop (pos + 1)) defaultTrim
                have hpl : pos + 1 ≤ line.length := by rw [hpre]; simp; omega
                refine ⟨(k, v), ?_⟩
                rw [substr_zero, Res.bind_ok, hk, Res.bind_ok, midStr, substr, if_neg (by omega), Res.bind_ok, hv]
                rfl
            obtain ⟨kv, hkv⟩ := this
            rw [hkv, Res.bind_ok]
            split
            · exact Or.inr rfl
            · exact ih _ _ _ next1 hf

end Flut
