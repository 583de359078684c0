import Verif.Proofs.XmlTotal
import Verif.Proofs.PropApi
import Verif.Props.FileSystem

/-!
# XML files (C78, C79, C80)
-/

namespace Flut

open Spec Spec.Xml Fs

/-! ## C78 -/

/-- What is saved from storable children is loaded as the first of them. -/
theorem C78_saved_text (n : PN) (h1 : ∀ kn ∈ n.children, Name kn.1) (h2 : ∀ kn ∈ n.children, Storable kn.2) :
    ∃ r, parseXml (savedXml n) = .ok r ∧ SameTree r (.mk false [] (n.children.take 1)) := by
  refine ⟨_, Flut.Xml.parseXml_saved n h1 h2, ?_⟩
  rw [PN.sameTree_iff]
  cases n.children with
  | nil => simp [PN.clear, PN.clearAll]
  | cons kn cs => obtain ⟨k, x⟩ := kn; simp [PN.clear, PN.clearAll, PN.clear_clear]

/-- A tree with one root element is read back as an equal tree. -/
theorem C78_round_trip_partial (n x : PN) (k : Str) (hv : n.value = []) (hc : n.children = [(k, x)]) (h1 : Name k) (h2 : Storable x) :
    ∃ r, parseXml (savedXml n) = .ok r ∧ SameTree r n := by
  obtain ⟨r, h3, h4⟩ := C78_saved_text n (by simp [hc, h1]) (by simp [hc, h2])
  refine ⟨r, h3, ?_⟩
  obtain ⟨a, v, cs⟩ := n
  simp only [PN.value, PN.children] at hv hc
  subst hv
  subst hc
  refine PN.sameTree_trans h4 ?_
  rw [PN.sameTree_iff]
  simp [PN.children, PN.clear]

/-- The same through a file. -/
theorem C78_save_load_partial (fs : Fs) (p : Str) (n x : PN) (k : Str) (l : Loc) (hl : fs.locate (cstr p) = some l)
    (ho : (fs.openWrite p).isSome) (hr : fs.readable l = true) (hv : n.value = []) (hc : n.children = [(k, x)]) (h1 : Name k)
    (h2 : Storable x) (ec : Option ErrorCode) (he : ∀ e ∈ ec, e.code = 0) :
    ∃ r, (fs.saveXml n p).loadXml p ec = (.ok r, ec) ∧ SameTree r n := by
  obtain ⟨r, hr1, hr2⟩ := C78_round_trip_partial n x k hv hc h1 h2
  refine ⟨r, ?_, hr2⟩
  unfold saveXml
  cases hw : fs.openWrite p with
  | none => rw [hw] at ho; simp at ho
  | some w =>
    obtain ⟨l', fs1⟩ := w
    dsimp only
    obtain ⟨w1, w2, w3, w4, w5⟩ := openWrite_some hw
    rw [hl] at w1
    simp only [Option.some.injEq] at w1
    subst w1
    rw [w2, put_put]
    unfold loadXml
    rw [(C52_present_partial (fs.put l (.file (savedXml n))) p (savedXml n) l (stat_put_file w4 hl w3)
      (by rw [locate_put_file w4]; exact hl) hr ec).1]
    dsimp only
    rw [if_neg, hr1]
    cases ec with
    | none => simp
    | some e => simp [he e (by simp)]

example : Name b!"scene" ∧ Storable (.mk true [] [(b!"name", .mk false b!" a<b & \"c\" " []), (b!"g", .mk false [] [(b!"x.y", .mk true [] [])])]) ∧
    (Fs.empty.openWrite b!"x.xml").isSome ∧
    savedXml (.mk false [] [(b!"s", .mk true [] [(b!"name", .mk false b!"a<b" []), (b!"g", .mk false [] [])])]) =
      b!"<s>\n\t<name>a&lt;b</name>\n\t<g/>\n</s>\n\n" := by
  refine ⟨by decide, ?_, by decide +kernel, by decide +kernel⟩
  refine .group (by decide) ?_
  intro kn h
  simp at h
  rcases h with rfl | rfl
  · exact .leaf (by decide) (fun _ => ⟨c!"a", by decide, by decide⟩)
  · refine .group (by decide) ?_
    intro kn h
    simp at h
    subst h
    exact .leaf (by decide) (by decide)

/-- Other trees are not: a value beside children, all but the first root element, and values of blanks only are lost without
an error; a value containing a zero is cut off; empty keys and keys with a blank make a file that cannot be loaded or that loads as
something else. -/
theorem C78_refuted :
    parseXml (savedXml (.mk false [] [(b!"a", .mk false b!"lost" [(b!"b", .mk false b!"1" [])])])) =
      .ok (.mk false [] [(b!"a", .mk false [] [(b!"b", .mk false b!"1" [])])]) ∧
    parseXml (savedXml (.mk false [] [(b!"a", .mk false b!"1" []), (b!"b", .mk false b!"2" [])])) =
      .ok (.mk false [] [(b!"a", .mk false b!"1" [])]) ∧
    parseXml (savedXml (.mk false [] [(b!"a", .mk false b!"  " [])])) = .ok (.mk false [] [(b!"a", .mk false [] [])]) ∧
    parseXml (savedXml (.mk false [] [(b!"a", .mk false [49, 0, 50] [])])) = .ok (.mk false [] [(b!"a", .mk false b!"1" [])]) ∧
    parseXml (savedXml (.mk false [] [([], .mk false b!"1" [])])) = .throws .stdException ∧
    parseXml (savedXml (.mk false [] [(b!"a b", .mk false b!"1" [])])) = .throws .stdException ∧
    parseXml (savedXml (.mk false [] [(b!"!a", .mk false [] [])])) = .ok PN.nil := by
  refine ⟨rfl, rfl, rfl, rfl, rfl, rfl, rfl⟩

/-! ## C79 -/

/-- Every document of the specification, with or without a byte order mark, is loaded as the first element it contains. -/
theorem C79_documents (bom : Bool) (space : Str) (d : Doc) (hs : Blanks space) (hd : Doc.Valid d) :
    parseXml ((if bom then byteOrderMark else []) ++ renderDoc space d) =
      .ok (.mk false [] ((d.flatMap fun ms => ms.1.meaning).take 1)) := Flut.Xml.parseXml_doc bom space d hs hd

/-- A document used as an example. -/
def exampleDoc : Doc :=
  [(.instruction b!"xml version=\"1.0\"", b!"\n"), (.comment b!" a - b ", []), (.doctype b!"x [<!E a>[b]>]", b!"\n"),
    (.elem b!"a" [⟨b!" ", b!"x", [], b!" ", true, [.lit c!"1", .named .lt, .dec [2, 3, 3] (Char.ofNat 233)]⟩] []
      (.cons [.lit c!"\n"] (.empty b!"b" [] b!" ") (.cons [.lit c!"t", .hex [(false, 2), (false, 0), (true, 10), (false, 12)] (Char.ofNat 0x20AC)] (.comment b!"c") (.last []))) b!" ",
      [])]

theorem endsAt_of_check {mark s : Str} (hz : ∀ c ∈ s, c ≠ 0)
    (h : ∀ k, k < s.length → ((s ++ mark).drop k).take mark.length ≠ mark) : EndsAt mark s := by
  refine ⟨hz, ?_⟩
  intro a b e
  apply Classical.byContradiction
  intro hb
  have hl := congrArg List.length e
  have hb' := List.length_pos_iff.2 hb
  simp only [List.length_append] at hl
  have := h a.length (by omega)
  rw [e, List.append_assoc, List.drop_left, List.take_left] at this
  exact this rfl

example : Doc.Valid exampleDoc ∧
    renderDoc [] exampleDoc =
      b!"<?xml version=\"1.0\"?>\n<!-- a - b --><!DOCTYPE x [<!E a>[b]>]>\n<a x= \"1&lt;&#233;\">\n<b />t&#x20Ac;<!--c--></a >" ∧
    (exampleDoc.flatMap fun ms => ms.1.meaning) =
      [(b!"a", .mk false b!"t€" [(b!"x", .mk false b!"1<é" []), (b!"b", .mk false [] [])])] := by
  refine ⟨?_, rfl, rfl⟩
  intro ms h
  simp [exampleDoc] at h
  rcases h with rfl | rfl | rfl | rfl
  · exact ⟨.instruction (endsAt_of_check (by decide) (by decide)), by decide⟩
  · exact ⟨.comment (endsAt_of_check (by decide) (by decide)), by decide⟩
  · refine ⟨.doctype ?_, by decide⟩
    have ch : ∀ {i : Bool} {s : Str} (c : Byte), (c ≠ 0 ∧ c ≠ 91 ∧ c ≠ (if i then 93 else 62)) → DoctypeText i s →
        DoctypeText i (c :: s) := fun c h hs => .char h.1 h.2.1 h.2.2 hs
    refine ch _ (by decide) (ch _ (by decide) (.brackets (s := b!"<!E a>[b]>") (t := []) ?_ .nil))
    refine ch _ (by decide) (ch _ (by decide) (ch _ (by decide) (ch _ (by decide) (ch _ (by decide) (ch _ (by decide) ?_)))))
    exact .brackets (s := b!"b") (t := b!">") (ch _ (by decide) .nil) (ch _ (by decide) .nil)
  · refine ⟨.elem (by decide) ?_ nofun (by decide) (.cons ?_ (.empty (by decide) (by simp) (by decide)) (.cons ?_ (.comment (endsAt_of_check (by decide) (by decide))) (.last (by simp)))), nofun⟩
    · intro a ha
      simp at ha
      subst ha
      refine ⟨by decide, by decide, by decide, ?_, nofun, by decide, ?_⟩
      · intro c hc; simp at hc; subst hc; unfold AttrByte; decide
      · intro i hi
        simp at hi
        rcases hi with rfl | rfl | rfl
        · simp [Item.Valid, Attr.quote]
        · trivial
        · exact ⟨by decide, by decide, by decide⟩
    · intro i hi; simp at hi; subst hi; simp [Item.Valid]
    · intro i hi
      simp at hi
      rcases hi with rfl | rfl
      · simp [Item.Valid]
      · exact ⟨by decide, by decide, by decide⟩

/-- So a reference to a character that does not exist can be taken for one that does. -/
theorem C79_reference_refuted : parseXml b!"<a>&#18446744073709551681;</a>" = .ok (.mk false [] [(b!"a", .mk false b!"A" [])]) ∧
    parseXml b!"<a>&#99999999;</a>" = .throws .stdException := ⟨rfl, rfl⟩

/-- Text in a CDATA section is lost without an error. -/
theorem C79_cdata_refuted : parseXml b!"<a><![CDATA[text]]></a>" = .ok (.mk false [] [(b!"a", .mk false [] [])]) ∧
    parseXml b!"<a>text</a>" = .ok (.mk false [] [(b!"a", .mk false b!"text" [])]) := ⟨rfl, rfl⟩

/-- Of a text interrupted by markup only the first part is kept. -/
theorem C79_mixed_refuted : parseXml b!"<a>one<!-- -->two</a>" = .ok (.mk false [] [(b!"a", .mk false b!"one" [])]) := rfl

/-- Documents that are not well-formed are loaded without an error: closing tags with another name, hexadecimal digits in a decimal
reference, a bare ampersand. -/
theorem C79_malformed_refuted : parseXml b!"<a><b>1</c></d>" = .ok (.mk false [] [(b!"a", .mk false [] [(b!"b", .mk false b!"1" [])])]) ∧
    parseXml b!"<a>&#A;&x</a>" = .ok (.mk false [] [(b!"a", .mk false b!"\n&x" [])]) := ⟨rfl, rfl⟩

/-! ## C80 -/

/-- Any bytes at all: the result is a tree without a value and with at most one child, or an exception. -/
theorem C80_any_bytes (text : Str) :
    parseXml text = .throws .stdException ∨ ∃ cs, parseXml text = .ok (.mk false [] cs) ∧ cs.length ≤ 1 :=
  Flut.Xml.parseXml_ends text

example : parseXml b!"<a" = .throws .stdException ∧ parseXml [] = .ok PN.nil ∧ parseXml b!"<a><" = .throws .stdException ∧
    parseXml b!"<a>&#x110000;</a>" = .throws .stdException := ⟨rfl, rfl, rfl, rfl⟩

/-- With an error code nothing is thrown. If the code reports an error afterwards the result is an empty tree; if not, the file
could be read and its contents were loaded. -/
theorem C80_error_code (fs : Fs) (p : Str) (e : ErrorCode) :
    ∃ n e', fs.loadXml p (some e) = (.ok n, some e') ∧ (e'.code ≠ 0 → n = PN.nil) ∧
      (e'.code = 0 → e' = e ∧ ∃ l, fs.openRead p = some l ∧ parseXml (fs.readAll l) = .ok n) := by
  unfold loadXml loadString
  cases ho : fs.openRead p with
  | none =>
    refine ⟨PN.nil, ⟨-1, b!"Could not open " ++ p⟩, by simp, by simp, by simp⟩
  | some l =>
    dsimp only
    by_cases he : e.code = 0
    · rw [if_neg (by simp [he])]
      rcases Flut.Xml.parseXml_ends (fs.readAll l) with h | ⟨cs, h, _⟩
      · rw [h]
        exact ⟨PN.nil, { e with code := -1 }, rfl, fun _ => rfl, by simp⟩
      · rw [h]
        exact ⟨_, e, rfl, fun hn => absurd he hn, fun _ => ⟨rfl, l, rfl, h⟩⟩
    · rw [if_pos (by simp [he])]
      exact ⟨PN.nil, e, rfl, fun _ => rfl, fun h => absurd h he⟩

example : ((Fs.empty.saveXml (.mk false [] [(b!"a", .mk false b!"1" [])]) b!"f").loadXml b!"f" (some ⟨0, []⟩)).2 = some ⟨0, []⟩ ∧
    ((Fs.empty.loadXml b!"f" (some ⟨0, []⟩)).2.map (·.code)) = some (-1) := by decide +kernel

/-- Without an error code: a file that cannot be opened or parsed throws. -/
theorem C80_no_error_code (fs : Fs) (p : Str) :
    ((fs.loadXml p none).1 = .throws .flutError ∧ fs.openRead p = none) ∨
    ∃ l, fs.openRead p = some l ∧ (fs.loadXml p none).1 = parseXml (fs.readAll l) := by
  unfold loadXml loadString
  cases ho : fs.openRead p with
  | none => exact .inl ⟨rfl, rfl⟩
  | some l =>
    refine .inr ⟨l, rfl, ?_⟩
    dsimp only
    rw [if_neg (by simp)]
    rcases Flut.Xml.parseXml_ends (fs.readAll l) with h | ⟨cs, h, _⟩ <;> rw [h]

/-- An error code that reports an earlier error hides the file. -/
theorem C80_stale_error :
    ((Fs.empty.saveXml (.mk false [] [(b!"a", .mk false b!"1" [])]) b!"f").loadXml b!"f" (some ⟨5, []⟩)) =
      (.ok PN.nil, some ⟨5, []⟩) := rfl

/-- `load_file` chooses the format by the extension. -/
theorem C80_load_file (fs : Fs) (p e : Str) (h : extension p = .ok e) :
    fs.loadFile p = if e = b!"xml" then (fs.loadXml p none).1 else (fs.loadProp p none).1 := by
  unfold loadFile
  rw [h, Res.bind_ok]

example : extension b!"dir.d/model.xml" = .ok b!"xml" ∧ extension b!"dir.xml/model" ≠ .ok b!"xml" := by decide +kernel

end Flut
