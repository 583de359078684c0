import Verif.Proofs.Xml
import Verif.Proofs.PropNode

/-! # Whole XML documents, and printing -/

namespace Flut.Xml

open Flut.Spec.Xml

/-! ## Rendered text contains no zeros -/

theorem blanks_nz {s : Str} (h : Blanks s) : ∀ c ∈ s, c ≠ 0 := by
  intro c hc he
  have := h c hc
  subst he
  simp [Blank] at this

theorem attr_nz {a : Attr} (h : a.Valid) : ∀ c ∈ a.render, c ≠ 0 := by
  obtain ⟨_, h2, _, h4, h5, h6, h7⟩ := h
  have hq : a.quote = 34 ∨ a.quote = 39 := by unfold Attr.quote; split <;> simp
  intro c hc
  simp only [Attr.render, List.mem_append, List.mem_singleton] at hc
  rcases hc with ((((((hc | hc) | hc) | hc) | hc) | hc) | hc) | hc
  · exact blanks_nz h2 c hc
  · exact (h4 c hc).1
  · exact blanks_nz h5 c hc
  · subst hc; decide
  · exact blanks_nz h6 c hc
  · subst hc; rcases hq with e | e <;> rw [e] <;> decide
  · exact (text_render_bytes (by tauto) h7 c hc).1
  · subst hc; rcases hq with e | e <;> rw [e] <;> decide

theorem attrs_nz {attrs : List Attr} (h : ∀ a ∈ attrs, a.Valid) : ∀ c ∈ attrs.flatMap Attr.render, c ≠ 0 := by
  intro c hc
  obtain ⟨a, ha, hc⟩ := List.mem_flatMap.1 hc
  exact attr_nz (h a ha) c hc

mutual
theorem markup_nz : ∀ (m : Markup), m.Valid → ∀ c ∈ m.render, c ≠ 0
  | .empty name attrs sp, hv, c, hc => by
    cases hv with
    | empty h1 h2 h3 =>
    simp only [Markup.render, List.mem_append] at hc
    rcases hc with (((hc | hc) | hc) | hc) | hc
    · simp at hc; subst hc; decide
    · exact (h1.2.1 c hc).1
    · exact attrs_nz h2 c hc
    · exact blanks_nz h3 c hc
    · simp at hc; rcases hc with rfl | rfl <;> decide
  | .elem name attrs sp body csp, hv, c, hc => by
    cases hv with
    | elem h1 h2 h3 h4 h5 =>
    simp only [Markup.render, List.mem_append] at hc
    rcases hc with ((((((((hc | hc) | hc) | hc) | hc) | hc) | hc) | hc) | hc) | hc
    · simp at hc; subst hc; decide
    · exact (h1.2.1 c hc).1
    · exact attrs_nz h2 c hc
    · exact blanks_nz h3 c hc
    · simp at hc; subst hc; decide
    · exact body_nz body h5 c hc
    · simp at hc; rcases hc with rfl | rfl <;> decide
    · exact (h1.2.1 c hc).1
    · exact blanks_nz h4 c hc
    · simp at hc; subst hc; decide
  | .comment s, hv, c, hc => by
    cases hv with
    | comment h =>
    simp only [Markup.render, List.mem_append] at hc
    rcases hc with (hc | hc) | hc
    · simp at hc; rcases hc with rfl | rfl | rfl <;> decide
    · exact h.1 c hc
    · simp at hc; rcases hc with rfl | rfl <;> decide
  | .instruction s, hv, c, hc => by
    cases hv with
    | instruction h =>
    simp only [Markup.render, List.mem_append] at hc
    rcases hc with (hc | hc) | hc
    · simp at hc; rcases hc with rfl | rfl <;> decide
    · exact h.1 c hc
    · simp at hc; rcases hc with rfl | rfl <;> decide
  | .doctype s, hv, c, hc => by
    cases hv with
    | doctype h =>
    simp only [Markup.render, List.mem_append] at hc
    rcases hc with (hc | hc) | hc
    · revert hc; revert c; decide
    · exact doctypeText_nz h c hc
    · simp at hc; subst hc; decide
theorem body_nz : ∀ (b : Body), b.Valid → ∀ c ∈ b.render, c ≠ 0
  | .last t, hv, c, hc => by
    cases hv with
    | last h => exact (text_render_bytes (.inl rfl) h c hc).1
  | .cons t m r, hv, c, hc => by
    cases hv with
    | cons h1 h2 h3 =>
    simp only [Body.render, List.mem_append] at hc
    rcases hc with (hc | hc) | hc
    · exact (text_render_bytes (.inl rfl) h1 c hc).1
    · exact markup_nz m h2 c hc
    · exact body_nz r h3 c hc
end

theorem doc_nz {sp : Str} {d : Doc} (hs : Blanks sp) (hd : Doc.Valid d) : ∀ c ∈ renderDoc sp d, c ≠ 0 := by
  intro c hc
  simp only [renderDoc, List.mem_append, List.mem_flatMap] at hc
  rcases hc with hc | ⟨ms, hm, hc | hc⟩
  · exact blanks_nz hs c hc
  · exact markup_nz _ (hd ms hm).1 c hc
  · exact blanks_nz (hd ms hm).2 c hc

/-! ## The loop over the document -/

theorem renderDoc_cons (sp : Str) (m : Markup) (s : Str) (d : Doc) :
    renderDoc sp ((m, s) :: d) = sp ++ (m.render ++ renderDoc s d) := by simp [renderDoc]

theorem parseDocN_doc : ∀ (d : Doc) (sp : Str) (n : Nat), Blanks sp → Doc.Valid d → (renderDoc sp d).length < n →
    ∃ nodes, parseDocN n (renderDoc sp d) = .ok nodes ∧ (∀ x ∈ nodes, x.name ≠ []) ∧
      getXmlChildren nodes = d.flatMap fun ms => ms.1.meaning
  | [], sp, n + 1, hs, _, hn => by
    refine ⟨[], ?_, by simp, by simp [getXmlChildren]⟩
    have : (renderDoc sp []).dropWhile isSpace = [] := by
      have := dropWhile_stop (b := []) (blanks_space hs) (by simp)
      simpa [renderDoc] using this
    simp [parseDocN, this]
  | (m, s) :: d, sp, n + 1, hs, hd, hn => by
    have hm := hd (m, s) (by simp)
    obtain ⟨x, xs, hx, _⟩ := markup_head hm.1
    have e : (renderDoc sp ((m, s) :: d)).dropWhile isSpace = m.render ++ renderDoc s d := by
      rw [renderDoc_cons]
      exact dropWhile_stop (blanks_space hs) (by rw [hx]; simp; decide)
    have e' : m.render ++ renderDoc s d = 60 :: (m.render ++ renderDoc s d).drop 1 := by rw [hx]; rfl
    obtain ⟨o, ho1, ho2, ho3⟩ := parseNode_markup m hm.1 (renderDoc s d) (2 * ((m.render ++ renderDoc s d).drop 1).length + 2) (by
      simp [hx]; omega)
    obtain ⟨ns, hn1, hn2, hn3⟩ := parseDocN_doc d s n hm.2 (fun a ha => hd a (by simp [ha])) (by
      rw [renderDoc_cons, hx] at hn; simp at hn; omega)
    refine ⟨o.toList ++ ns, ?_, ?_, ?_⟩
    · rw [parseDocN, e, e']
      simp only [ho1, Res.bind_ok, hn1]
    · intro y hy
      rcases List.mem_append.1 hy with hy | hy
      · exact ho2 y (by simpa using hy)
      · exact hn2 y hy
    · rw [getXmlChildren_append, ho3, hn3]; simp

theorem skipBom_doc (bom : Bool) {sp : Str} {d : Doc} (hs : Blanks sp) (hd : Doc.Valid d) :
    skipBom ((if bom then byteOrderMark else []) ++ renderDoc sp d) = renderDoc sp d := by
  cases bom with
  | true => simp [skipBom, byteOrderMark, List.isPrefixOf]
  | false =>
    simp only [Bool.false_eq_true, if_false, List.nil_append]
    have : ∀ c ∈ (renderDoc sp d).head?, c ≠ 0xEF := by
      intro c hc he
      subst he
      cases sp with
      | cons x xs =>
        simp [renderDoc] at hc
        have := hs x (by simp)
        subst hc
        simp [Blank] at this
      | nil =>
        cases d with
        | nil => simp [renderDoc] at hc
        | cons ms d =>
          obtain ⟨x, xs, hx, _⟩ := markup_head (hd ms (by simp)).1
          rw [show ms = (ms.1, ms.2) from rfl, renderDoc_cons, hx] at hc
          simp at hc
    unfold skipBom
    cases hr : renderDoc sp d with
    | nil => rfl
    | cons c t =>
      have := this c (by simp [hr])
      have h2 : (0xEF : Byte) ≠ c := fun h => this h.symm
      simp [List.isPrefixOf, h2]

theorem parseXml_doc (bom : Bool) (sp : Str) (d : Doc) (hs : Blanks sp) (hd : Doc.Valid d) :
    parseXml ((if bom then byteOrderMark else []) ++ renderDoc sp d) =
      .ok (.mk false [] ((d.flatMap fun ms => ms.1.meaning).take 1)) := by
  have hc : cstr ((if bom then byteOrderMark else []) ++ renderDoc sp d) = (if bom then byteOrderMark else []) ++ renderDoc sp d := by
    apply cstr_eq_self
    intro c h
    rcases List.mem_append.1 h with h | h
    · cases bom
      · simp at h
      · simp [byteOrderMark] at h; rcases h with rfl | rfl | rfl <;> decide
    · exact doc_nz hs hd c h
  obtain ⟨ns, h1, h2, h3⟩ := parseDocN_doc d sp (((if bom then byteOrderMark else []) ++ renderDoc sp d).length + 1) hs hd (by
    simp only [List.length_append]; omega)
  have e : parseDoc ((if bom then byteOrderMark else []) ++ renderDoc sp d) = .ok ns := by
    rw [parseDoc, hc, skipBom_doc bom hs hd, h1]
  rw [parseXml, e, ← h3]
  cases ns with
  | nil => simp [getXmlChildren, PN.nil]
  | cons x r =>
    have : x.name.length > 0 := List.length_pos_iff.2 (h2 x (by simp))
    simp [getXmlChildren, this]

/-! ## The printed text as a document -/

/-- The text of a value, as printed. -/
def escapeItem (c : Byte) : Item :=
  if c = 60 then .named .lt else if c = 62 then .named .gt else if c = 39 then .named .apos
  else if c = 34 then .named .quot else if c = 38 then .named .amp else .lit c

theorem renderText_escape : ∀ v : Str, renderText (v.map escapeItem) = escape v
  | [] => rfl
  | c :: v => by
    have ih := renderText_escape v
    simp only [renderText, List.map_cons, List.flatMap_cons, escape] at ih ⊢
    rw [ih]
    congr 1
    unfold escapeItem
    split
    · rfl
    split
    · rfl
    split
    · rfl
    split
    · rfl
    split
    · rfl
    · rfl

theorem textMeaning_escape : ∀ v : Str, textMeaning (v.map escapeItem) = v
  | [] => rfl
  | c :: v => by
    have ih := textMeaning_escape v
    simp only [textMeaning, List.map_cons, List.flatMap_cons] at ih ⊢
    rw [ih]
    unfold escapeItem
    split
    · rename_i h; subst h; rfl
    split
    · rename_i h; subst h; rfl
    split
    · rename_i h; subst h; rfl
    split
    · rename_i h; subst h; rfl
    split
    · rename_i h; subst h; rfl
    · rfl

theorem escapeItem_valid {c : Byte} (h : c ≠ 0) : (escapeItem c).Valid 60 := by
  unfold escapeItem
  repeat' split
  all_goals simp_all [Item.Valid]

theorem named_not_blank (e : Entity) : ¬ ∀ x ∈ (Item.named e).render, Blank x := by
  intro h
  cases e <;> exact absurd (h 38 (by decide)) (by decide)

theorem escape_blank {v : Str} : IsBlankText (v.map escapeItem) → ∀ c ∈ v, Blank c := by
  intro h c hc
  have hm : ∀ x ∈ (escapeItem c).render, Blank x := by
    intro x hx
    exact h x (List.mem_flatMap.2 ⟨escapeItem c, List.mem_map.2 ⟨c, hc, rfl⟩, hx⟩)
  unfold escapeItem at hm
  repeat' split at hm
  all_goals first
    | exact absurd hm (named_not_blank _)
    | simpa [Item.render] using hm

/-- A line break and tabs. -/
def breakText (n : Nat) : List Item := .lit 10 :: List.replicate n (.lit 9)

theorem renderText_break (n : Nat) : renderText (breakText n) = 10 :: List.replicate n 9 := by
  have : ∀ n, renderText (List.replicate n (.lit 9)) = List.replicate n 9 := by
    intro n
    induction n with
    | zero => rfl
    | succ n ih => simp only [renderText, List.replicate_succ, List.flatMap_cons] at ih ⊢; rw [ih]; rfl
  have h := this n
  simp only [renderText, breakText, List.flatMap_cons] at h ⊢
  rw [h]; rfl

theorem break_blank (n : Nat) : IsBlankText (breakText n) := by
  intro c hc
  rw [renderText_break] at hc
  simp at hc
  rcases hc with rfl | ⟨_, rfl⟩ <;> simp [Blank]

theorem break_valid (n : Nat) : ∀ i ∈ breakText n, i.Valid 60 := by
  intro i hi
  simp [breakText] at hi
  rcases hi with rfl | ⟨_, rfl⟩ <;> simp [Item.Valid]

mutual
/-- The markup printed for a child. -/
def printed (indent : Nat) (key : Str) : PN → Markup
  | .mk _ v cs =>
    if cs.isEmpty then if v.isEmpty then .empty key [] [] else .elem key [] [] (.last (v.map escapeItem)) []
    else .elem key [] [] (printedBody indent cs) []
/-- The body printed for children. -/
def printedBody (indent : Nat) : List (Str × PN) → Body
  | [] => .last (breakText indent)
  | (k, n) :: r => .cons (breakText (indent + 1)) (printed (indent + 1) k n) (printedBody indent r)
end

mutual
theorem printed_render : ∀ (n : PN) (indent : Nat) (key : Str), Storable n → Name key →
    printNode indent (setXmlNode key n) = List.replicate indent 9 ++ (printed indent key n).render ++ [10]
  | .mk a v cs, indent, key, hn, hk => by
    have hkey : cstr key = key := cstr_eq_self (fun c hc => (hk.2.1 c hc).1)
    cases cs with
    | nil =>
      cases hn with
      | leaf h1 h2 =>
        have hv : cstr v = v := cstr_eq_self h1
        cases v with
        | nil => simp [setXmlNode, setXmlChildren, printNode, printed, Markup.render, hkey, hv]
        | cons c v =>
          simp [setXmlNode, setXmlChildren, printNode, printed, Markup.render, Body.render, hkey, hv]
          simpa using (renderText_escape (c :: v)).symm
      | group h1 h2 =>
        have hv : cstr [] = [] := rfl
        simp [setXmlNode, setXmlChildren, printNode, printed, Markup.render, hkey, hv]
    | cons kn cs =>
      cases hn with
      | group h1 h2 =>
        have hb := printedBody_render (kn :: cs) indent h1 h2
        have : (setXmlChildren (kn :: cs)).isEmpty = false := by obtain ⟨k, n⟩ := kn; rfl
        have hp : printed indent key (.mk a [] (kn :: cs)) = .elem key [] [] (printedBody indent (kn :: cs)) [] := by simp [printed]
        rw [setXmlNode, printNode, hp, hkey, this, Markup.render, hb]
        simp
theorem printedBody_render : ∀ (cs : List (Str × PN)) (indent : Nat), (∀ kn ∈ cs, Name kn.1) → (∀ kn ∈ cs, Storable kn.2) →
    (printedBody indent cs).render = 10 :: (printChildren (indent + 1) (setXmlChildren cs) ++ List.replicate indent 9)
  | [], indent, _, _ => by simp [printedBody, Body.render, renderText_break, setXmlChildren, printChildren]
  | (k, n) :: r, indent, h1, h2 => by
    have ih := printedBody_render r indent (fun x hx => h1 x (by simp [hx])) (fun x hx => h2 x (by simp [hx]))
    have hn := printed_render n (indent + 1) k (h2 (k, n) (by simp)) (h1 (k, n) (by simp))
    rw [printedBody, Body.render, ih, setXmlChildren, printChildren, hn, renderText_break]
    simp
end

mutual
theorem printed_valid : ∀ (n : PN) (indent : Nat) (key : Str), Storable n → Name key → (printed indent key n).Valid
  | .mk a v cs, indent, key, hn, hk => by
    unfold printed
    split
    · split
      · exact .empty hk (by simp) nofun
      · refine .elem hk (by simp) nofun nofun (.last ?_)
        intro i hi
        obtain ⟨c, hc, rfl⟩ := List.mem_map.1 hi
        cases hn with
        | leaf h1 => exact escapeItem_valid (h1 c hc)
        | group => simp at hc
    · cases hn with
      | leaf => simp at *
      | group h1 h2 => exact .elem hk (by simp) nofun nofun (printedBody_valid cs indent h1 h2)
theorem printedBody_valid : ∀ (cs : List (Str × PN)) (indent : Nat), (∀ kn ∈ cs, Name kn.1) → (∀ kn ∈ cs, Storable kn.2) →
    (printedBody indent cs).Valid
  | [], indent, _, _ => .last (break_valid _)
  | (k, n) :: r, indent, h1, h2 =>
    .cons (break_valid _) (printed_valid n (indent + 1) k (h2 (k, n) (by simp)) (h1 (k, n) (by simp)))
      (printedBody_valid r indent (fun x hx => h1 x (by simp [hx])) (fun x hx => h2 x (by simp [hx])))
end

theorem printedBody_value : ∀ (cs : List (Str × PN)) (indent : Nat), (printedBody indent cs).value = []
  | [], indent => by simp [printedBody, Body.value, break_blank]
  | (k, n) :: r, indent => by simp [printedBody, Body.value, break_blank, printedBody_value r indent]

mutual
theorem printed_meaning : ∀ (n : PN) (indent : Nat) (key : Str), Storable n → (printed indent key n).meaning = [(key, n.clear)]
  | .mk a v cs, indent, key, hn => by
    cases cs with
    | nil =>
      cases v with
      | nil => simp [printed, Markup.meaning, attrNodes, PN.clear, PN.clearAll]
      | cons c v =>
        cases hn with
        | leaf h1 h2 =>
          have hb : ¬ IsBlankText ((c :: v).map escapeItem) := by
            intro h
            obtain ⟨x, hx, hnb⟩ := h2 (by simp)
            exact hnb (escape_blank h x hx)
          have hm := textMeaning_escape (c :: v)
          simp only [printed, List.isEmpty_nil, List.isEmpty_cons, if_true, Bool.false_eq_true, if_false, Markup.meaning, Body.value, hb,
            hm, attrNodes, Body.kids, PN.clear, PN.clearAll, List.map_nil, List.nil_append]
    | cons kn cs =>
      cases hn with
      | group h1 h2 =>
        have hb := printedBody_kids (kn :: cs) indent h2
        simp only [printed, List.isEmpty_cons, Bool.false_eq_true, if_false, Markup.meaning, hb, printedBody_value, attrNodes, PN.clear,
          List.map_nil, List.nil_append]
theorem printedBody_kids : ∀ (cs : List (Str × PN)) (indent : Nat), (∀ kn ∈ cs, Storable kn.2) →
    (printedBody indent cs).kids = PN.clearAll cs
  | [], _, _ => by simp [printedBody, Body.kids, PN.clearAll]
  | (k, n) :: r, indent, h => by
    rw [printedBody, Body.kids, printed_meaning n _ k (h (k, n) (by simp)), printedBody_kids r indent (fun x hx => h x (by simp [hx]))]
    simp [PN.clearAll]
end

/-- The document printed for a tree. -/
def printedDoc (cs : List (Str × PN)) : Doc := cs.map fun kn => (printed 0 kn.1 kn.2, [10])

theorem printedDoc_render : ∀ (cs : List (Str × PN)), (∀ kn ∈ cs, Name kn.1) → (∀ kn ∈ cs, Storable kn.2) →
    renderDoc [] (printedDoc cs) = printChildren 0 (setXmlChildren cs)
  | [], _, _ => by simp [printedDoc, renderDoc, setXmlChildren, printChildren]
  | (k, n) :: r, h1, h2 => by
    have ih := printedDoc_render r (fun x hx => h1 x (by simp [hx])) (fun x hx => h2 x (by simp [hx]))
    have hn := printed_render n 0 k (h2 (k, n) (by simp)) (h1 (k, n) (by simp))
    rw [setXmlChildren, printChildren, hn, ← ih]
    simp [printedDoc, renderDoc]

theorem printedDoc_meaning : ∀ (cs : List (Str × PN)), (∀ kn ∈ cs, Storable kn.2) →
    ((printedDoc cs).flatMap fun ms => ms.1.meaning) = PN.clearAll cs
  | [], _ => by simp [printedDoc, PN.clearAll]
  | (k, n) :: r, h => by
    have ih := printedDoc_meaning r (fun x hx => h x (by simp [hx]))
    simp only [printedDoc, List.map_cons, List.flatMap_cons, printed_meaning n 0 k (h (k, n) (by simp))] at ih ⊢
    rw [ih]
    simp [PN.clearAll]

/-- The saved text is a rendered document: the last line break follows the last markup, or is the whole text. -/
theorem savedXml_doc (n : PN) (h1 : ∀ kn ∈ n.children, Name kn.1) (h2 : ∀ kn ∈ n.children, Storable kn.2) :
    ∃ sp d, Blanks sp ∧ Doc.Valid d ∧ savedXml n = renderDoc sp d ∧
      (d.flatMap fun ms => ms.1.meaning) = PN.clearAll n.children := by
  have hv : Doc.Valid (printedDoc n.children) := by
    intro ms hms
    obtain ⟨kn, hk, rfl⟩ := List.mem_map.1 hms
    exact ⟨printed_valid _ _ _ (h2 kn hk) (h1 kn hk), by simp [Blanks, Blank]⟩
  have hr := printedDoc_render n.children h1 h2
  have hm := printedDoc_meaning n.children h2
  rcases List.eq_nil_or_concat (printedDoc n.children) with e | ⟨d, ms, e⟩
  · refine ⟨[10], [], by simp [Blanks, Blank], by intro ms h; simp at h, ?_, ?_⟩
    · rw [savedXml, printDoc, ← hr, e]; simp [renderDoc]
    · rw [← hm, e]
  · refine ⟨[], d ++ [(ms.1, ms.2 ++ [10])], nofun, ?_, ?_, ?_⟩
    · intro x hx
      rcases List.mem_append.1 hx with hx | hx
      · exact hv x (by rw [e]; simp [hx])
      · simp only [List.mem_singleton] at hx
        subst hx
        have := hv ms (by rw [e]; simp)
        refine ⟨this.1, ?_⟩
        intro c hc
        rcases List.mem_append.1 hc with hc | hc
        · exact this.2 c hc
        · simp at hc; subst hc; simp [Blank]
    · rw [savedXml, printDoc, ← hr, e]; simp [renderDoc]
    · rw [← hm, e]; simp

theorem clearAll_length : ∀ cs : List (Str × PN), (PN.clearAll cs).length = cs.length
  | [] => by simp [PN.clearAll]
  | (k, n) :: r => by simp [PN.clearAll, clearAll_length r]

theorem parseXml_saved (n : PN) (h1 : ∀ kn ∈ n.children, Name kn.1) (h2 : ∀ kn ∈ n.children, Storable kn.2) :
    parseXml (savedXml n) = .ok (.mk false [] ((PN.clearAll n.children).take 1)) := by
  obtain ⟨sp, d, hs, hd, e, hm⟩ := savedXml_doc n h1 h2
  have := parseXml_doc false sp d hs hd
  rw [hm] at this
  rw [e]
  simpa using this

end Flut.Xml
