import Verif.Proofs.CutProp
import Verif.Props.FileSystem

/-!
# Prop files that were not saved completely (C109)
-/

namespace Flut

open Spec Fs

/-- Of a beginning of the text of a saved tree, all nodes are loaded whose text is complete and at most one more, as `CutKids`
says. The exceptions: if the beginning ends with a backslash, loading may never end; if it ends with a quote, it may throw. -/
theorem C109_saved_text (n : PN) (written : Str) (hk : ∀ kn ∈ n.children, PrintableKey kn.1)
    (hn : ∀ kn ∈ n.children, PrintableTree kn.2) (hw : written <+: savedProp true n) :
    (parseProp written = .diverges ∧ written.getLast? = some 92) ∨
    (parseProp written = .throws .flutError ∧ written.getLast? = some 34) ∨
    ∃ cs, parseProp written = .ok (.mk false [] cs) ∧ CutKids 0 written cs n.children := by
  have hz : cstr written = written := cstr_of_ne_zero fun c hc => saved_ne_zero hk hn c (hw.subset hc)
  have hl : written.length < (pinit written).rest.length + 1 := by
    cases written with
    | nil => simp
    | cons c w =>
      have hc : strchr propDelims c = false := by
        cases hcs : n.children with
        | nil => rw [savedProp, hcs, writeNodes] at hw; simp at hw
        | cons kn r =>
          obtain ⟨k, a, v, ds⟩ := kn
          have hkk : PrintableKey k := hk _ (by rw [hcs]; exact List.mem_cons_self)
          obtain ⟨d, Y, hY, hd⟩ := tryQuoted_head hkk.1 (isValidLabel_key hkk).2.1
          rw [savedProp, hcs, writeNodes, writeNode, hY] at hw
          simp only [indentStr, List.replicate_zero, if_true, List.nil_append, List.cons_append] at hw
          rw [(List.cons_prefix_cons.1 hw).1]
          exact hd
      rw [pinit_cons hc]
      simp
  rw [parseProp, CharStream.ofCStr, hz, parseStream]
  rcases parse_cut hk hn written hw with ⟨h1, h2⟩ | ⟨t, s, h1, h2⟩
  · exact .inl ⟨by rw [h1]; rfl, h2⟩
  · rw [h1, Res.bind_ok]
    dsimp only
    rcases h2 _ hl with ⟨q1, q2⟩ | ⟨q1, q2⟩ | ⟨cs', q1, q2⟩
    · exact .inl ⟨by rw [q1]; rfl, q2⟩
    · exact .inr (.inl ⟨by rw [q1]; rfl, q2⟩)
    · exact .inr (.inr ⟨cs', by rw [q1]; rfl, q2⟩)

theorem writeNode_length_key (k : Str) (l : Nat) (n : PN) : l + (tryQuoted k).length < (writeNode true k l n).length := by
  obtain ⟨a, v, cs⟩ := n
  simp [writeNode, indentStr, newlineStr]
  omega

theorem writeNodes_append (l : Nat) : ∀ (a b : List (Str × PN)), writeNodes true l (a ++ b) = writeNodes true l a ++ writeNodes true l b
  | [], b => by simp [writeNodes]
  | (k, n) :: a, b => by simp [writeNodes, writeNodes_append l a b]

/-- The nodes whose text is complete are loaded, in order. -/
theorem cutKids_front {l : Nat} : ∀ {done rest : List (Str × PN)} {u : Str} {cs : List (Str × PN)}, (∀ kn ∈ done, PrintableKey kn.1) →
    CutKids l (writeNodes true l done ++ u) cs (done ++ rest) →
    ∃ front back, cs = front ++ back ∧ front.map Prod.fst = done.map Prod.fst ∧
      (∀ p ∈ front.zip done, SameTree p.1.2 p.2.2) ∧ CutKids l u back rest
  | [], rest, u, cs, _, h => ⟨[], cs, rfl, rfl, by simp, by simpa [writeNodes] using h⟩
  | (k, n) :: done, rest, u, cs, hk, h => by
    have h1 := writeNode_length_key k l n
    obtain ⟨c, Y, hY, _⟩ := tryQuoted_head (hk (k, n) (by simp)).1 (isValidLabel_key (hk (k, n) (by simp))).2.1
    have h2 : 1 ≤ (tryQuoted k).length := by rw [hY]; simp
    rw [writeNodes, List.append_assoc, List.cons_append] at h
    generalize hw : writeNode true k l n ++ (writeNodes true l done ++ u) = w at h
    have hwl : (writeNode true k l n).length ≤ w.length := by rw [← hw]; simp
    cases h with
    | whole ht hc =>
      rw [List.append_cancel_left_eq] at hw
      rw [← hw] at hc
      obtain ⟨front, back, rfl, e1, e2, e3⟩ := cutKids_front (fun x hx => hk x (by simp [hx])) hc
      refine ⟨_ :: front, back, rfl, by simp [e1], ?_, e3⟩
      intro p hp
      rw [List.zip_cons_cons] at hp
      rcases List.mem_cons.1 hp with rfl | hp
      · exact ht
      · exact e2 p hp
    | stop h => omega
    | key h => omega
    | value _ h => omega
    | group _ h => omega

/-- Nodes whose text was written completely are loaded unchanged, in their order and with nothing in between; of the node in
which writing stopped, at most one thing is loaded, and nothing of the nodes behind it. -/
theorem C109_complete_nodes (n r : PN) (done rest : List (Str × PN)) (k : Str) (x : PN) (u : Str)
    (hc : n.children = done ++ (k, x) :: rest) (hk : ∀ kn ∈ n.children, PrintableKey kn.1)
    (hn : ∀ kn ∈ n.children, PrintableTree kn.2) (hu : u <+: writeNode true k 0 x) (hl : u.length < (writeNode true k 0 x).length)
    (hp : parseProp (writeNodes true 0 done ++ u) = .ok r) :
    ∃ front back, r.children = front ++ back ∧ front.map Prod.fst = done.map Prod.fst ∧
      (∀ p ∈ front.zip done, SameTree p.1.2 p.2.2) ∧ back.length ≤ 1 := by
  have hw : writeNodes true 0 done ++ u <+: savedProp true n := by
    rw [savedProp, hc, writeNodes_append, writeNodes, List.prefix_append_right_inj]
    exact List.IsPrefix.trans hu (List.prefix_append _ _)
  rcases C109_saved_text n _ hk hn hw with ⟨h, _⟩ | ⟨h, _⟩ | ⟨cs, h, h1⟩
  · rw [hp] at h; cases h
  · rw [hp] at h; cases h
  · rw [hp] at h
    injection h with h
    subst h
    rw [hc] at h1
    obtain ⟨front, back, e, e1, e2, e3⟩ := cutKids_front (fun x hx => hk x (by rw [hc]; simp [hx])) h1
    refine ⟨front, back, e, e1, e2, ?_⟩
    cases e3 with
    | whole => rw [List.length_append] at hl; omega
    | stop => simp
    | key => simp
    | value => simp
    | group => simp

/-- The same through a file: what `load_prop` finds when `save_prop` was interrupted. A complete save is one of the cases. -/
theorem C109_interrupted_save (fs after : Fs) (p : Str) (n : PN) (l : Loc) (hl : fs.locate (cstr p) = some l)
    (ho : (fs.openWrite p).isSome) (hr : fs.readable l = true) (hk : ∀ kn ∈ n.children, PrintableKey kn.1)
    (hn : ∀ kn ∈ n.children, PrintableTree kn.2) (h : Interrupted fs l (savedProp true n) after) :
    Interrupted fs l (savedProp true n) (fs.saveProp n p true).2 ∧
    (after = fs ∨ ∃ written, written <+: savedProp true n ∧ (after.loadProp p none).1 = parseProp written ∧
      ((parseProp written = .diverges ∧ written.getLast? = some 92) ∨
       (parseProp written = .throws .flutError ∧ written.getLast? = some 34) ∨
       ∃ cs, parseProp written = .ok (.mk false [] cs) ∧ CutKids 0 written cs n.children)) := by
  cases hw : fs.openWrite p with
  | none => rw [hw] at ho; simp at ho
  | some w =>
    obtain ⟨l', fs1⟩ := w
    obtain ⟨w1, w2, w3, w4, w5⟩ := openWrite_some hw
    rw [hl] at w1
    simp only [Option.some.injEq] at w1
    subst w1
    constructor
    · refine .inr ⟨_, List.prefix_refl _, ?_⟩
      unfold saveProp
      rw [hw]
      dsimp only
      rw [w2, put_put]
    rcases h with h | ⟨u, hu, rfl⟩
    · exact .inl h
    refine .inr ⟨u, hu, ?_, C109_saved_text n u hk hn hu⟩
    rw [(C52_present_partial (fs.put l (.file u)) p u l (stat_put_file w4 hl w3)
      (by rw [locate_put_file w4]; exact hl) hr none).2.1 (by simp)]

/-- A tree with groups, text in quotes and an escape. -/
def cutExample : PN := .mk false []
  [(b!"a", .mk false b!"12" []), (b!"g", .mk false [] [(b!"b c", .mk false b!"x\ny" []), (b!"d", .mk false b!"4 5" [])])]

example : savedProp true cutExample = b!"a = 12\ng\n{\n\t\"b c\" = \"x\\ny\"\n\td = \"4 5\"\n}\n" ∧
    (∀ kn ∈ cutExample.children, PrintableKey kn.1) ∧ (∀ kn ∈ cutExample.children, PrintableTree kn.2) ∧
    (Fs.empty.openWrite b!"f").isSome ∧
    parseProp b!"a = 1" = .ok (.mk false [] [(b!"a", .mk false b!"1" [])]) ∧
    parseProp b!"a = 12\ng\n{\n\t\"b" = .ok (.mk false [] [(b!"a", .mk false b!"12" []), (b!"g", .mk false [] [(b!"b", .mk false [] [])])]) ∧
    parseProp b!"a = 12\ng\n{\n\t\"b c\" = \"x\\ny\"\n\td = \"4 " = .ok (.mk false [] [(b!"a", .mk false b!"12" []),
      (b!"g", .mk false [] [(b!"b c", .mk false b!"x\ny" []), (b!"d", .mk false b!"4" [])])]) := by
  refine ⟨rfl, by decide, ?_, by decide +kernel, rfl, rfl, rfl⟩
  have leaf : ∀ v, Printable v → PrintableTree (.mk false v []) := fun v hv => .leaf hv
  intro kn h
  simp only [cutExample, PN.children, List.mem_cons, List.not_mem_nil, or_false] at h
  rcases h with rfl | rfl
  · exact leaf _ (by decide)
  · refine .node (by simp) (by decide) ?_
    intro kn h
    simp only [List.mem_cons, List.not_mem_nil, or_false] at h
    rcases h with rfl | rfl
    · exact leaf _ (by decide)
    · exact leaf _ (by decide)

/-- An interrupted save is not noticed: the beginning of a file loads without an error, as another tree. -/
theorem C109_noticed_refuted : ∃ u, u <+: savedProp true cutExample ∧
    ∃ r, parseProp u = .ok r ∧ ¬ SameTree r cutExample ∧ ¬ SameTree r PN.nil := by
  refine ⟨b!"a = 1", by decide +kernel, .mk false [] [(b!"a", .mk false b!"1" [])], rfl, ?_, ?_⟩
  · rintro ⟨h, _⟩
    revert h; decide
  · rintro ⟨h, _⟩
    revert h; decide

/-- Loading the beginning of a file can run forever: here, the text stops behind the backslash of an escape. -/
theorem C109_ends_refuted : ∃ u, u <+: savedProp true cutExample ∧ parseProp u = .diverges :=
  ⟨b!"a = 12\ng\n{\n\t\"b c\" = \"x\\", by decide +kernel, rfl⟩

/-- Loading the beginning of a file can throw: here, the text stops behind the quote that opens a key in a group. -/
theorem C109_loads_refuted : ∃ u, u <+: savedProp true cutExample ∧ parseProp u = .throws .flutError :=
  ⟨b!"a = 12\ng\n{\n\t\"", by decide +kernel, rfl⟩

/-- A cut can make another character out of a control character: code 27 is written as three digits, of which the first two mean
code 3. -/
theorem C109_beginning_refuted : ∃ n u v, (∀ kn ∈ n.children, PrintableTree kn.2) ∧ u <+: savedProp true n ∧
    n.children = [(b!"a", .mk false b!"x\x1by" [])] ∧ parseProp u = .ok (.mk false [] [(b!"a", .mk false v [])]) ∧
    ¬ v <+: b!"x\x1by" := by
  refine ⟨.mk false [] [(b!"a", .mk false b!"x\x1by" [])], b!"a = \"x\\03", b!"x\x03", ?_, by decide +kernel, rfl, rfl, by decide⟩
  intro kn h
  simp only [PN.children, List.mem_cons, List.not_mem_nil, or_false] at h
  subst h
  exact .leaf (by decide)

end Flut
