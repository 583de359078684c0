import Verif.Proofs.XmlDoc

/-! # The XML parser ends on every input -/

namespace Flut.Xml

/-- The result is a value with a part of `s` that is left, or an exception. -/
def Ends {α : Type} (s : Str) : Res (α × Str) → Prop
  | .ok (_, t) => t <:+ s
  | .throws _ => True
  | _ => False

/-- The same for results that are only the text that is left. -/
def EndsText (s : Str) : Res Str → Prop
  | .ok t => t <:+ s
  | .throws _ => True
  | _ => False

theorem Ends.mono {α : Type} {s s' : Str} {r : Res (α × Str)} (h : Ends s r) (hs : s <:+ s') : Ends s' r := by
  cases r with
  | ok x => exact List.IsSuffix.trans h hs
  | _ => exact h

theorem Ends.bind {α β : Type} {s : Str} {r : Res (α × Str)} {f : α × Str → Res (β × Str)} (h : Ends s r)
    (hf : ∀ a t, r = .ok (a, t) → t <:+ s → Ends s (f (a, t))) : Ends s (r >>= f) := by
  cases r with
  | ok x => exact hf x.1 x.2 rfl h
  | throws e => trivial
  | ub => exact h
  | diverges => exact h

theorem EndsText.bind {β : Type} {s : Str} {r : Res Str} {f : Str → Res (β × Str)} (h : EndsText s r)
    (hf : ∀ t, t <:+ s → Ends s (f t)) : Ends s (r >>= f) := by
  cases r with
  | ok x => exact hf x h
  | throws e => trivial
  | ub => exact h
  | diverges => exact h

theorem EndsText.mono {s s' : Str} {r : Res Str} (h : EndsText s r) (hs : s <:+ s') : EndsText s' r := by
  cases r with
  | ok x => exact List.IsSuffix.trans h hs
  | _ => exact h

theorem readCode_suffix (base : Nat) : ∀ (s : Str) (code : Nat), (readCode base code s).2 <:+ s
  | [], code => by simp [readCode]
  | c :: s, code => by
    unfold readCode
    split
    · exact List.suffix_refl _
    · exact (readCode_suffix base s _).trans (List.suffix_cons _ _)

theorem codedChar_total (code : Nat) : (∃ b, codedChar code = .ok b) ∨ ∃ e, codedChar code = .throws e := by
  unfold codedChar
  repeat' split
  all_goals simp

theorem expandN_ends (p : Byte → Bool) : ∀ (n : Nat) (s : Str), s.length < n → Ends s (expandN p n s)
  | n + 1, [], _ => by simp [expandN, Ends]
  | n + 1, c :: s, h => by
    have hlen : s.length < n := by simpa using h
    -- a step that goes on with a part of `s`
    have go : ∀ (t : Str) (g : Str → Str), t <:+ s → Ends (c :: s) (do let (t, r) ← expandN p n t; Res.ok (g t, r)) := by
      intro t g ht
      have := ht.length_le
      refine ((expandN_ends p n t (by omega)).mono (ht.trans (List.suffix_cons _ _))).bind ?_
      intro a r _ hr
      exact hr
    unfold expandN
    split
    · split
      · split
        · exact go _ (fun t => 38 :: t) (List.drop_suffix _ _)
        split
        · exact go _ (fun t => 39 :: t) (List.drop_suffix _ _)
        split
        · exact go _ (fun t => 34 :: t) (List.drop_suffix _ _)
        split
        · exact go _ (fun t => 62 :: t) (List.drop_suffix _ _)
        split
        · exact go _ (fun t => 60 :: t) (List.drop_suffix _ _)
        split
        · dsimp only
          generalize hrc : (if b!"#x".isPrefixOf s = true then readCode 16 0 (s.drop 2) else readCode 10 0 (s.drop 1)) = cs
          have hsuf : cs.2 <:+ s := by
            rw [← hrc]
            split
            · exact (readCode_suffix _ _ _).trans (List.drop_suffix _ _)
            · exact (readCode_suffix _ _ _).trans (List.drop_suffix _ _)
          obtain ⟨code, s'⟩ := cs
          dsimp only at hsuf ⊢
          rcases codedChar_total code with ⟨b, hb⟩ | ⟨e, he⟩
          · rw [hb, Res.bind_ok]
            split
            · exact go _ (fun t => b ++ t) ((List.suffix_cons _ _).trans hsuf)
            · trivial
          · rw [he]; trivial
        · exact go _ (fun t => c :: t) (List.suffix_refl _)
      · exact go _ (fun t => c :: t) (List.suffix_refl _)
    · exact List.suffix_refl _

theorem expand_ends (p : Byte → Bool) (s : Str) : Ends s (expand p s) := expandN_ends p _ s (Nat.lt_succ_self _)

/-- At a character of the class, something is consumed. -/
theorem expand_head (p : Byte → Bool) {c : Byte} {s : Str} (hp : p c = true) {d r : Str} (h : expand p (c :: s) = .ok (d, r)) : r <:+ s := by
  have aux : ∀ (t : Str) (g : Str → Str), t <:+ s → (do let (t, r) ← expandN p (s.length + 1) t; Res.ok (g t, r)) = .ok (d, r) →
      r <:+ s := by
    intro t g ht he
    have hl := ht.length_le
    have := expandN_ends p (s.length + 1) t (by omega)
    cases hx : expandN p (s.length + 1) t with
    | ok x =>
      rw [hx] at he this
      simp only [Res.bind_ok, Res.ok.injEq, Prod.mk.injEq] at he
      obtain ⟨_, rfl⟩ := he
      exact List.IsSuffix.trans this ht
    | throws e => rw [hx] at he; cases he
    | ub => rw [hx] at he; cases he
    | diverges => rw [hx] at he; cases he
  unfold expand at h
  rw [List.length_cons, expandN, if_pos hp] at h
  revert h
  split
  · split
    · exact aux _ (fun t => 38 :: t) (List.drop_suffix _ _)
    split
    · exact aux _ (fun t => 39 :: t) (List.drop_suffix _ _)
    split
    · exact aux _ (fun t => 34 :: t) (List.drop_suffix _ _)
    split
    · exact aux _ (fun t => 62 :: t) (List.drop_suffix _ _)
    split
    · exact aux _ (fun t => 60 :: t) (List.drop_suffix _ _)
    split
    · dsimp only
      generalize hrc : (if b!"#x".isPrefixOf s = true then readCode 16 0 (s.drop 2) else readCode 10 0 (s.drop 1)) = cs
      have hsuf : cs.2 <:+ s := by
        rw [← hrc]
        split
        · exact (readCode_suffix _ _ _).trans (List.drop_suffix _ _)
        · exact (readCode_suffix _ _ _).trans (List.drop_suffix _ _)
      obtain ⟨code, s'⟩ := cs
      dsimp only at hsuf ⊢
      rcases codedChar_total code with ⟨b, hb⟩ | ⟨e, he⟩
      · rw [hb, Res.bind_ok]
        split
        · exact aux _ (fun t => b ++ t) ((List.suffix_cons _ _).trans hsuf)
        · intro h; cases h
      · rw [he]; intro h; cases h
    · exact aux _ (fun t => c :: t) (List.suffix_refl _)
  · exact aux _ (fun t => c :: t) (List.suffix_refl _)

theorem skipTo_ends (mark : Str) : ∀ s : Str, EndsText s (skipTo mark s)
  | [] => trivial
  | c :: s => by
    unfold skipTo
    split
    · exact List.drop_suffix _ _
    · exact (skipTo_ends mark s).mono (List.suffix_cons _ _)

theorem readCdata_ends : ∀ s : Str, Ends s (readCdata s)
  | [] => trivial
  | c :: s => by
    unfold readCdata
    split
    · exact List.drop_suffix _ _
    · refine ((readCdata_ends s).mono (List.suffix_cons _ _)).bind ?_
      intro a r _ hr
      exact hr

theorem skipDoctype_ends : ∀ (s : Str) (d : Nat), EndsText s (skipDoctype d s)
  | [], d => by cases d <;> trivial
  | c :: s, 0 => by
    unfold skipDoctype
    split
    · exact List.suffix_cons _ _
    split
    · exact (skipDoctype_ends s _).mono (List.suffix_cons _ _)
    · exact (skipDoctype_ends s _).mono (List.suffix_cons _ _)
  | c :: s, d + 1 => by
    unfold skipDoctype
    split
    · exact (skipDoctype_ends s _).mono (List.suffix_cons _ _)
    split
    · exact (skipDoctype_ends s _).mono (List.suffix_cons _ _)
    · exact (skipDoctype_ends s _).mono (List.suffix_cons _ _)

theorem parseAttrsN_ends : ∀ (n : Nat) (s : Str), s.length < n → Ends s (parseAttrsN n s)
  | n + 1, s, h => by
    unfold parseAttrsN
    split
    · exact List.suffix_refl _
    · split
      · rename_i s1 e1
        have h1 : (61 :: s1) <:+ s := by rw [← e1]; exact (List.dropWhile_suffix _).trans (List.dropWhile_suffix _)
        split
        · rename_i q s2 e2
          have h2 : (q :: s2) <:+ s1 := by rw [← e2]; exact List.dropWhile_suffix _
          have h2' : s2 <:+ s := ((List.suffix_cons _ _).trans h2).trans ((List.suffix_cons _ _).trans h1)
          split
          · refine ((expand_ends _ s2).mono h2').bind ?_
            intro v s3 he hs3
            have hs3' : s3 <:+ s2 := by have := expand_ends (isAttrData q) s2; rw [he] at this; exact this
            dsimp only
            split
            · rename_i q' s4
              split
              · have h4 : (s4.dropWhile isSpace) <:+ s :=
                  (List.dropWhile_suffix _).trans ((List.suffix_cons _ _).trans hs3)
                have hlen : (s4.dropWhile isSpace).length < n := by
                  have l1 := ((List.dropWhile_suffix isSpace).trans ((List.suffix_cons _ _).trans hs3')).length_le
                  have l2 := h2.length_le
                  have l3 := h1.length_le
                  simp only [List.length_cons] at l2 l3
                  omega
                refine ((parseAttrsN_ends n _ hlen).mono h4).bind ?_
                intro a r _ hr
                exact hr
              · trivial
            · trivial
          · trivial
        · trivial
      · trivial

theorem parseAttrs_ends (s : Str) : Ends s (parseAttrs s) := parseAttrsN_ends _ s (Nat.lt_succ_self _)

mutual
theorem parseNode_ends : ∀ (n : Nat) (s : Str), (∀ c ∈ s, c ≠ 0) → 2 * s.length + 2 ≤ n → Ends s (parseNode n s)
  | n + 1, s, hz, hn => by
    unfold parseNode
    split
    · rename_i t
      have h : EndsText (63 :: t) (skipTo b!"?>" (if isDecl t = true then t.drop 4 else t)) := by
        refine (skipTo_ends _ _).mono ?_
        split
        · exact (List.drop_suffix _ _).trans (List.suffix_cons _ _)
        · exact List.suffix_cons _ _
      exact h.bind (fun r hr => hr)
    · rename_i t
      split
      · exact ((skipTo_ends _ _).mono ((List.drop_suffix _ _).trans (List.suffix_cons _ _))).bind (fun r hr => hr)
      split
      · exact ((readCdata_ends _).mono ((List.drop_suffix _ _).trans (List.suffix_cons _ _))).bind (fun _ r _ hr => hr)
      split
      · exact ((skipDoctype_ends _ _).mono ((List.drop_suffix _ _).trans (List.suffix_cons _ _))).bind (fun r hr => hr)
      · exact ((skipTo_ends _ _).mono (List.suffix_cons _ _)).bind (fun r hr => hr)
    · exact parseElement_ends n s hz (by omega)
theorem parseElement_ends : ∀ (n : Nat) (s : Str), (∀ c ∈ s, c ≠ 0) → 2 * s.length + 1 ≤ n → Ends s (parseElement n s)
  | n + 1, s, hz, hn => by
    unfold parseElement
    split
    · trivial
    · have h1 : (s.dropWhile isNameChar).dropWhile isSpace <:+ s := (List.dropWhile_suffix _).trans (List.dropWhile_suffix _)
      refine ((parseAttrs_ends _).mono h1).bind ?_
      intro attrs r _ hr
      dsimp only
      split
      · rename_i t _
        have ht : t <:+ s := (List.suffix_cons _ _).trans hr
        have hl := hr.length_le
        simp only [List.length_cons] at hl
        rcases parseContents_ends n [] [] t (fun c hc => hz c (ht.subset hc)) (by omega) with ⟨v, cs, u, e, hu⟩ | ⟨x, e⟩
        · rw [e]; exact hu.trans ht
        · rw [e]; trivial
      · exact ((List.suffix_cons _ _).trans (List.suffix_cons _ _)).trans hr
      · trivial
theorem parseContents_ends : ∀ (n : Nat) (v : Str) (cs : List Node) (s : Str), (∀ c ∈ s, c ≠ 0) → 2 * s.length + 1 ≤ n →
    (∃ v' cs' t, parseContents n v cs s = .ok (v', cs', t) ∧ t <:+ s) ∨ ∃ e, parseContents n v cs s = .throws e
  | n + 1, v, cs, s, hz, hn => by
    unfold parseContents
    have hd : s.dropWhile isSpace <:+ s := List.dropWhile_suffix _
    split
    · exact .inr ⟨_, rfl⟩
    · rename_i t e
      split
      · rename_i r er
        refine .inl ⟨v, cs, r, rfl, ?_⟩
        have h1 : (62 :: r) <:+ t := by rw [← er]; exact (List.dropWhile_suffix _).trans (List.dropWhile_suffix _)
        have h2 : (60 :: 47 :: t) <:+ s := by rw [← e]; exact hd
        exact ((List.suffix_cons _ _).trans h1).trans (((List.suffix_cons _ _).trans (List.suffix_cons _ _)).trans h2)
      · exact .inr ⟨_, rfl⟩
    · rename_i t _ e
      have h2 : (60 :: t) <:+ s := by rw [← e]; exact hd
      have h3 : t <:+ s := (List.suffix_cons _ _).trans h2
      have hl := h2.length_le
      simp only [List.length_cons] at hl
      have hn1 := parseNode_ends n t (fun c hc => hz c (h3.subset hc)) (by omega)
      cases hx : parseNode n t with
      | ok x =>
        rw [hx] at hn1
        have hx2 : x.2 <:+ t := hn1
        have hl2 := hx2.length_le
        rcases parseContents_ends n v (cs ++ x.1.toList) x.2 (fun c hc => hz c ((hx2.trans h3).subset hc)) (by omega) with
          ⟨v', cs', u, e, hu⟩ | ⟨y, e⟩
        · exact .inl ⟨v', cs', u, e, hu.trans (hx2.trans h3)⟩
        · exact .inr ⟨y, e⟩
      | throws y => exact .inr ⟨y, rfl⟩
      | ub => rw [hx] at hn1; exact hn1.elim
      | diverges => rw [hx] at hn1; exact hn1.elim
    · rename_i h0 h1 h2
      -- the first character belongs to the text
      cases hs : s with
      | nil => rw [hs] at h0; exact absurd rfl h0
      | cons c s' =>
        have hc : isTextChar c = true := by
          have hc0 : c ≠ 0 := hz c (by simp [hs])
          have hc1 : c ≠ 60 := by
            rintro rfl
            apply h2 s'
            rw [hs, List.dropWhile_cons_of_neg (by decide)]
          simp [isTextChar, hc0, hc1]
        have he := expand_ends isTextChar (c :: s')
        cases hx : expand isTextChar (c :: s') with
        | ok x =>
          have hx2 : x.2 <:+ s' := expand_head _ hc hx
          have hx3 : x.2 <:+ s := by rw [hs]; exact hx2.trans (List.suffix_cons _ _)
          have hl2 := hx2.length_le
          rw [hs, List.length_cons] at hn
          rcases parseContents_ends n (if (cstr v).isEmpty then x.1 else v) (cs ++ [.mk .data [] x.1 [] []]) x.2
              (fun c hc => hz c (hx3.subset hc)) (by omega) with ⟨v', cs', u, e, hu⟩ | ⟨y, e⟩
          · exact .inl ⟨v', cs', u, e, hs ▸ hu.trans hx3⟩
          · exact .inr ⟨y, e⟩
        | throws y => exact .inr ⟨y, rfl⟩
        | ub => rw [hx] at he; exact he.elim
        | diverges => rw [hx] at he; exact he.elim
end

theorem parseDocN_ends : ∀ (n : Nat) (s : Str), (∀ c ∈ s, c ≠ 0) → s.length < n →
    (∃ ns, parseDocN n s = .ok ns) ∨ ∃ e, parseDocN n s = .throws e
  | n + 1, s, hz, hn => by
    unfold parseDocN
    have hd : s.dropWhile isSpace <:+ s := List.dropWhile_suffix _
    split
    · exact .inl ⟨_, rfl⟩
    · rename_i t e
      have h2 : (60 :: t) <:+ s := by rw [← e]; exact hd
      have h3 : t <:+ s := (List.suffix_cons _ _).trans h2
      have hl := h2.length_le
      simp only [List.length_cons] at hl
      have hn1 := parseNode_ends (2 * t.length + 2) t (fun c hc => hz c (h3.subset hc)) (by omega)
      cases hx : parseNode (2 * t.length + 2) t with
      | ok x =>
        rw [hx] at hn1
        have hx2 : x.2 <:+ t := hn1
        have hl2 := hx2.length_le
        rcases parseDocN_ends n x.2 (fun c hc => hz c ((hx2.trans h3).subset hc)) (by omega) with ⟨ns, e⟩ | ⟨y, e⟩
        · exact .inl ⟨x.1.toList ++ ns, by simp [e]⟩
        · exact .inr ⟨y, by simp only [Res.bind_ok, e]; rfl⟩
      | throws y => exact .inr ⟨y, rfl⟩
      | ub => rw [hx] at hn1; exact hn1.elim
      | diverges => rw [hx] at hn1; exact hn1.elim
    · exact .inr ⟨_, rfl⟩

theorem parseDoc_ends (text : Str) : (∃ ns, parseDoc text = .ok ns) ∨ ∃ e, parseDoc text = .throws e := by
  have h1 : skipBom (cstr text) <:+ cstr text := by
    unfold skipBom
    split
    · exact List.drop_suffix _ _
    · exact List.suffix_refl _
  have h2 : (cstr text).length ≤ text.length := (List.takeWhile_prefix _).length_le
  have h3 := h1.length_le
  apply parseDocN_ends _ _ _ (by omega)
  intro c hc
  have := List.all_eq_true.1 (List.all_takeWhile (p := fun x : Byte => x != 0) (l := text)) c (h1.subset hc)
  simpa using this

theorem parseXml_ends (text : Str) :
    parseXml text = .throws .stdException ∨ ∃ cs, parseXml text = .ok (.mk false [] cs) ∧ cs.length ≤ 1 := by
  unfold parseXml
  rcases parseDoc_ends text with ⟨ns, e⟩ | ⟨x, e⟩
  · rw [e]
    cases ns with
    | nil => exact .inr ⟨[], rfl, by simp⟩
    | cons n ns => exact .inr ⟨_, rfl, by simp⟩
  · rw [e]; exact .inl rfl

end Flut.Xml
