import Verif.Proofs.CallDepth

/-!
# C151: how deep the calls go when trees are read, written and destroyed

`Model/CallDepth.lean` has the functions with a limit on the number of calls that can be active; `Spec/CallDepth.lean` says how
deep a tree is. For texts that are not read, because the parser throws, is undefined or does not return, the theorems say that
there is a number of calls that they need, and how large it is at most.
-/

namespace Flut

open Spec

/-- `load_prop` and `parse_prop`: the calls that a text needs are as many as its tree is deep, and at most half the length of the
text, rounded up. With room for them the limit makes no difference, and without it the stack overflows, whatever is in the text. -/
theorem C151_prop (text : Str) : ∃ h, 2 * h ≤ text.length + 1 ∧ (∀ t, parseProp text = .ok t → h = height t) ∧
    ∀ d, parsePropLim d text = if h ≤ d then .done (parseProp text) else .overflow := by
  obtain ⟨h, h1, h2, h3⟩ := room_parseProp text
  exact ⟨h, by omega, h3, h1⟩

/-- A text that is read is read with room for as many calls as the tree is deep, and with no less. -/
theorem C151_prop_exactly {text : Str} {t : PN} (ht : parseProp text = .ok t) (d : Nat) :
    parsePropLim d text = if height t ≤ d then .done (.ok t) else .overflow := by
  obtain ⟨h, -, h2, h3⟩ := C151_prop text
  rw [h3 d, h2 t ht, ht]

/-- No limit is enough for every text, and the bound on the length is exact: `2 d + 1` characters exceed room for `d` calls. -/
theorem C151_prop_overflow_refuted (d : Nat) : ∃ text : Str, text.length = 2 * d + 1 ∧ parsePropLim d text = .overflow :=
  ⟨opened d, opened_length d, parse_opened d⟩

/-- Shorter texts never overflow. -/
theorem C151_prop_short {text : Str} {d : Nat} (h : text.length ≤ 2 * d) : parsePropLim d text = .done (parseProp text) := by
  obtain ⟨k, h1, -, h3⟩ := C151_prop text
  rw [h3 d, if_pos (by omega)]

/-- `load_xml`: the calls that a text needs are as many as there are elements inside each other (one if there is only other
markup), and at most a third of the length of the text, rounded up. The tree is at most one level deeper, for the attributes. -/
theorem C151_xml (text : Str) : ∃ h, 3 * h ≤ text.length + 2 ∧
    (∀ ns, Xml.parseDoc text = .ok ns → ns ≠ [] → h = max 1 (nestingAll ns)) ∧
    (∀ t, parseXml text = .ok t → height t ≤ h + 1) ∧
    ∀ d, parseXmlLim d text = if h ≤ d then .done (parseXml text) else .overflow := by
  obtain ⟨h, h1, h2, h3, h4⟩ := room_parseXml text
  exact ⟨h, h2, fun ns hns hne => by rw [h3 ns hns, xmlRoom, if_neg hne], h4, h1⟩

/-- No limit is enough for every text, and the bound on the length is exact. -/
theorem C151_xml_overflow_refuted (d : Nat) : ∃ text : Str, text.length = 3 * d + 1 ∧ parseXmlLim d text = .overflow :=
  ⟨openedXml d, openedXml_length d, parse_openedXml d⟩

/-- Shorter texts never overflow. -/
theorem C151_xml_short {text : Str} {d : Nat} (h : text.length ≤ 3 * d) : parseXmlLim d text = .done (parseXml text) := by
  obtain ⟨k, h1, -, -, h3⟩ := C151_xml text
  rw [h3 d, if_pos (by omega)]

/-- `save_prop` needs as many calls as the tree is deep, in both layouts. -/
theorem C151_save (t : PN) (readable : Bool) (d : Nat) :
    savedPropLim readable d t = if height t ≤ d then .done (.ok (savedProp readable t)) else .overflow := by
  obtain ⟨a, v, cs⟩ := t
  exact room_writeNodes readable cs 0 d

/-- Destroying a tree needs one call for each level, the root included. -/
theorem C151_destroy (t : PN) (d : Nat) : destroyLim d t = if height t < d then .done (.ok ()) else .overflow :=
  room_destroy t d

/-- What was read can be saved with the same room, and destroyed with room for one call more. -/
theorem C151_enough {text : Str} {t : PN} {d : Nat} (h : parsePropLim d text = .done (.ok t)) (readable : Bool) :
    savedPropLim readable d t = .done (.ok (savedProp readable t)) ∧ destroyLim (d + 1) t = .done (.ok ()) := by
  obtain ⟨k, -, h2, h3⟩ := C151_prop text
  rw [h3 d] at h
  have hk : k ≤ d := by
    by_cases hk : k ≤ d
    · exact hk
    · rw [if_neg hk] at h; cases h
  rw [if_pos hk] at h
  simp only [Lim.done.injEq] at h
  have := h2 t h
  exact ⟨by rw [C151_save, if_pos (by omega)], by rw [C151_destroy, if_pos (by omega)]⟩

/-- Three levels: three calls are enough, two are not, and four are needed to destroy the tree. -/
example : ∃ t, parseProp b!"a{b{c=1}d=2}" = .ok t ∧ height t = 3 := by
  refine ⟨.mk false [] [(b!"a", .mk false [] [(b!"b", .mk false [] [(b!"c", .mk false b!"1" [])]), (b!"d", .mk false b!"2" [])])],
    by rfl, rfl⟩

/-- A text that is not read needs calls too: the error in the second group comes before the stack is used up, or after. -/
example : parseProp b!"a{b{=}}" = .throws .flutError := by rfl

/-- Two elements inside each other, and an attribute below them. -/
example : ∃ t, parseXml b!"<a><b c='1'/></a>" = .ok t ∧ height t = 3 ∧
    ∃ ns, Xml.parseDoc b!"<a><b c='1'/></a>" = .ok ns ∧ nestingAll ns = 2 := by
  refine ⟨.mk false [] [(b!"a", .mk false [] [(b!"b", .mk false [] [(b!"c", .mk false b!"1" [])])])], rfl, rfl, _, rfl, rfl⟩

end Flut
