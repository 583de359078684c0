import Verif.Model.BoundsText
import Verif.Props.Text
import Verif.Props.PropNode
import Verif.Props.StreamInt
import Verif.Props.Real

/-! # C92: bounds from a property node and from text -/

namespace Flut

open Spec CharStream PN

theorem findSub_dots {lo : Str} (h1 : lo.count 46 ≤ 1) (h2 : lo.getLast? ≠ some 46) (hi : Str) :
    findSub b!".." (lo ++ b!".." ++ hi) = some lo.length := by
  induction lo with
  | nil => simp [findSub]
  | cons c cs ih =>
    have hnp : List.isPrefixOf (b!".." : Str) (c :: (cs ++ b!".." ++ hi)) = false := by
      cases cs with
      | nil =>
        have : c ≠ 46 := by rintro rfl; exact h2 rfl
        have : ¬ (46 : Byte) = c := fun h => this h.symm
        simp [List.isPrefixOf, this]
      | cons d ds =>
        by_cases hc : (46 : Byte) = c
        · by_cases hd : (46 : Byte) = d
          · subst hc; subst hd; simp at h1
          · simp [List.isPrefixOf, hd]
        · simp [List.isPrefixOf, hc]
    have hih := ih (by rw [List.count_cons] at h1; omega) (by
      cases cs with
      | nil => simp
      | cons d ds => simpa using h2)
    show findSub b!".." (c :: (cs ++ b!".." ++ hi)) = _
    rw [findSub, if_neg (by rw [hnp]; decide), hih]
    rfl

theorem findSub_dots_none {v : Str} (h : ¬ b!".." <:+: v) : findSub b!".." v = none := by
  induction v with
  | nil => rfl
  | cons c cs ih =>
    have h1 : ¬ List.isPrefixOf (b!".." : Str) (c :: cs) = true := fun hp => h (List.isPrefixOf_iff_prefix.1 hp).isInfix
    rw [findSub, if_neg h1, ih fun hi => h (hi.trans (List.suffix_cons c cs).isInfix)]
    rfl

theorem ofNode_range {α : Type} (ofStr : Str → Res α) (lowest max : α) (a : Bool) (cs : List (Str × PN)) {lo : Str} (hi : Str)
    (h1 : lo.count 46 ≤ 1) (h2 : lo.getLast? ≠ some 46) (h3 : ofStr (lo ++ b!".." ++ hi) = ofStr lo) :
    Bounds.ofNode ofStr lowest max (.mk a (lo ++ b!".." ++ hi) cs) = (do
      let x ← ofStr lo
      let y ← ofStr hi
      .ok ⟨x, y⟩) := by
  have hv : (PN.mk a (lo ++ b!".." ++ hi) cs).hasValue = true := by simp [hasValue, value]
  have hs : substr (lo ++ b!".." ++ hi) (lo.length + 2) none = .ok hi := by
    have e : lo.length + 2 = (lo ++ b!"..").length := by simp
    unfold substr
    rw [if_neg (by simp), e, List.drop_left]
  unfold Bounds.ofNode
  rw [if_pos hv]
  simp only [value, h3, findSub_dots h1 h2, hs, Res.bind_ok]

/-! ## Reals -/

theorem digits_count {a : Str} (h : ∀ d ∈ a, 48 ≤ d.toNat ∧ d.toNat ≤ 57) : a.count 46 = 0 := by
  rw [List.count_eq_zero]
  intro hm
  have := h 46 hm
  revert this; decide

theorem numeral_count {n : Str} {k : Int} (h : Numeral n k) : n.count 46 = 0 := by
  cases h with
  | pos h => exact digits_count h.2
  | plus h => rw [List.count_cons, digits_count h.2]; decide
  | minus h => rw [List.count_cons, digits_count h.2]; decide

theorem decimal_count {w : Str} {x : ℚ} (h : Decimal w x) : w.count 46 ≤ 1 := by
  induction h with
  | int h => rw [digits_count h.2]; omega
  | point ha hb _ => rw [List.count_append, List.count_cons, digits_count ha, digits_count hb]; decide
  | exp _ _ _ he hn ih =>
    rw [List.count_append, List.count_cons, numeral_count hn]
    rcases he with rfl | rfl <;> simpa using ih

theorem space_count {ws : Str} (h : ∀ c ∈ ws, IsSpace c) : ws.count 46 = 0 := by
  rw [List.count_eq_zero]
  intro hm
  have := h 46 hm
  revert this; unfold IsSpace; decide

/-- A decimal number ends at two points, perhaps with the first of them. -/
theorem scanDecimal_dots {w t : Str} {x : ℚ} (h : Decimal w x) : ∃ r, scanDecimal (w ++ 46 :: 46 :: t) = some (x, r) := by
  have hdig : ∀ {a : Str}, (∀ d ∈ a, 48 ≤ d.toNat ∧ d.toNat ≤ 57) → ∀ d ∈ a, isDigitC d = true := by
    intro a h d hd; exact isDigitC_iff.2 (h d hd)
  have h46 : isDigitC 46 = false := by decide
  have hE : ∀ t : Str, scanExp 101 (46 :: t) = (0, 46 :: t) := by
    intro t; exact scanExp_none (by simp)
  have frac : ∀ {a b r : Str}, (∀ d ∈ a, 48 ≤ d.toNat ∧ d.toNat ≤ 57) → (∀ d ∈ b, 48 ≤ d.toNat ∧ d.toNat ≤ 57) → a ++ b ≠ [] →
      (∀ c ∈ r.head?, isDigitC c = false) →
      scanDecimal (a ++ 46 :: (b ++ r)) = some ((decValue (a ++ b) : ℚ) * 10 ^ ((scanExp 101 r).1 - b.length), (scanExp 101 r).2) := by
    intro a b r ha hb hne hr
    have e1 : (a ++ 46 :: (b ++ r)).dropWhile isDigitC = 46 :: (b ++ r) := dropWhile_append_stop (hdig ha) (by simp [h46])
    have e2 : (a ++ 46 :: (b ++ r)).takeWhile isDigitC = a := takeWhile_append_stop (hdig ha) (by simp [h46])
    have e3 : (b ++ r).takeWhile isDigitC = b := takeWhile_append_stop (hdig hb) hr
    have e4 : (b ++ r).dropWhile isDigitC = r := dropWhile_append_stop (hdig hb) hr
    have hne' : (a.isEmpty && b.isEmpty) = false := by
      cases a <;> cases b <;> simp_all
    unfold scanDecimal scanPoint
    simp only [e1, e2, e3, e4, List.head?_cons, if_true, List.tail_cons, hne', Bool.false_eq_true, if_false]
    rfl
  cases h with
  | int ha =>
    refine ⟨46 :: t, ?_⟩
    have := frac (a := w) (b := []) (r := 46 :: t) ha.2 (by simp) (by simpa using ha.1) (by simp [h46])
    rw [List.nil_append] at this
    rw [this, hE]
    simp
  | point ha hb hne =>
    rename_i a b
    refine ⟨46 :: 46 :: t, ?_⟩
    have := frac (r := 46 :: 46 :: t) ha hb hne (by simp [h46])
    rw [List.append_assoc, List.cons_append, this, hE]
    simp [zpow_neg, div_eq_mul_inv]
  | exp hw he hE' hc hn =>
    rename_i w x e n k
    have hm := Decimal.mantissa hw he hE'
    have hr2 : ∀ c ∈ (e :: n ++ 46 :: 46 :: t).head?, ¬ (48 ≤ c.toNat ∧ c.toNat ≤ 57) ∧ c ≠ 46 := by
      rcases hc with rfl | rfl <;> simp <;> decide
    obtain ⟨a, b, h1, h2, h3⟩ := mantissa_scan hm hr2
    obtain ⟨m, neg, h4, h5, _⟩ := scanNumber_numeral (rest := 46 :: 46 :: t) hn (by simp)
    have h6 : scanExp 101 (e :: n ++ 46 :: 46 :: t) = (k, 46 :: 46 :: t) := by
      unfold scanExp
      rw [if_pos]
      · simp only [List.cons_append, List.tail_cons, h4, h5]
      · rcases hc with rfl | rfl
        · left; rfl
        · right; rfl
    refine ⟨46 :: 46 :: t, ?_⟩
    unfold scanDecimal
    rw [List.append_assoc, h1]
    simp only [h2, h6, h3]
    rw [zpow_sub₀ (by norm_num), zpow_natCast]
    simp
    ring

theorem strtod_dots (f : Fmt) {ws sign w t : Str} {x : ℚ} (hws : ∀ c ∈ ws, IsSpace c)
    (hs : sign = [] ∨ sign = [43] ∨ sign = [45]) (h : Decimal w x) :
    ∃ r, strtod f (ws ++ sign ++ w ++ 46 :: 46 :: t) =
      some ((f.convert (sign == [45]) x).1, (f.convert (sign == [45]) x).2, r) := by
  obtain ⟨⟨c, cs, hw, hc⟩, hch⟩ := decimal_chars h
  obtain ⟨r, hr⟩ := scanDecimal_dots (t := t) h
  have key : ∀ c : Byte, ((48 ≤ c.toNat ∧ c.toNat ≤ 57) ∨ c = 46) →
      (isSpaceC c = false ∧ c ≠ 43 ∧ c ≠ 45 ∧ lowerC c ≠ c!"i" ∧ lowerC c ≠ c!"n") := byte_all (by decide +kernel)
  obtain ⟨k1, k2, k3, k4, k5⟩ := key c hc
  have hp : w ++ 46 :: 46 :: t = c :: (cs ++ 46 :: 46 :: t) := by rw [hw]; rfl
  have hx : hasWord b!"0x" (w ++ 46 :: 46 :: t) = false := by
    have kx : ∀ d : Byte, ((48 ≤ d.toNat ∧ d.toNat ≤ 57) ∨ d ∈ b!".eE+-") → lowerC d ≠ 120 := byte_all (by decide +kernel)
    rw [hp]
    cases cs with
    | nil =>
      have : lowerC 46 ≠ 120 := by decide
      simp [hasWord, this]
    | cons d ds =>
      have := kx d (hch d (by simp [hw]))
      simp [hasWord, this]
  refine ⟨r, ?_⟩
  rw [List.append_assoc, strtod_body f hws hs hp k1 k2 k3]
  unfold strtodBody
  rw [hasWord_head hp k4, hasWord_head hp k4, hasWord_head hp k5, hx]
  simp [hr]

theorem realFrom_dots (f : Fmt) {ws sign w hi : Str} {x : ℚ} (hws : ∀ c ∈ ws, IsSpace c)
    (hs : sign = [] ∨ sign = [43] ∨ sign = [45]) (h : Decimal w x) :
    realFrom f (ws ++ sign ++ w ++ b!".." ++ hi) = realFrom f (ws ++ sign ++ w) := by
  have e1 : cstr (ws ++ sign ++ w ++ b!".." ++ hi) = ws ++ sign ++ w ++ 46 :: 46 :: cstr hi := by
    rw [List.append_assoc, cstr_decimal hws hs h]
    rfl
  have e2 : cstr (ws ++ sign ++ w) = ws ++ sign ++ w ++ [] := by
    have := cstr_decimal hws hs h []
    rw [List.append_nil] at this
    exact this
  obtain ⟨r, hr⟩ := strtod_dots f (t := cstr hi) hws hs h
  unfold realFrom stod
  rw [e1, e2, hr, strtod_decimal f hws hs h (by simp [Ends])]

/-- A node with a value and without two points in it: both bounds are that value. -/
theorem C92_single {α : Type} (ofStr : Str → Res α) (lowest max : α) (a : Bool) (v : Str) (cs : List (Str × PN)) (hv : v ≠ [])
    (h : ¬ b!".." <:+: v) :
    Bounds.ofNode ofStr lowest max (.mk a v cs) = (do let x ← ofStr v; .ok ⟨x, x⟩) := by
  have hv' : (PN.mk a v cs).hasValue = true := by cases v <;> simp_all [hasValue, value]
  unfold Bounds.ofNode
  rw [if_pos hv']
  simp only [value, findSub_dots_none h]

example : Bounds.ofNode (realFrom .double) (.fin true 9) (.fin false 9) (leaf b!"1.5") =
    .ok ⟨.fin false (3 / 2), .fin false (3 / 2)⟩ := by decide +kernel

/-- A node whose value is a decimal number that does not end with a point, two points, and more text: the bounds are what both
texts alone are read as. -/
theorem C92_real_range (f : Fmt) (lowest max : Flt) (a : Bool) (cs : List (Str × PN)) (ws sign w hi : Str) (q : ℚ)
    (hws : ∀ c ∈ ws, IsSpace c) (hs : sign = [] ∨ sign = b!"+" ∨ sign = b!"-") (h : Decimal w q) (hl : w.getLast? ≠ some c!".") :
    Bounds.ofNode (realFrom f) lowest max (.mk a (ws ++ sign ++ w ++ b!".." ++ hi) cs) = (do
      let x ← realFrom f (ws ++ sign ++ w)
      let y ← realFrom f hi
      .ok ⟨x, y⟩) := by
  apply ofNode_range
  · rw [List.count_append, List.count_append, space_count hws]
    have := decimal_count h
    rcases hs with rfl | rfl | rfl <;> simpa using this
  · obtain ⟨⟨c, cs, hw, _⟩, _⟩ := decimal_chars h
    rw [List.getLast?_append_of_ne_nil _ (by rw [hw]; simp)]
    exact hl
  · exact realFrom_dots f hws hs h

example : Bounds.ofNode (realFrom .double) (.fin true 9) (.fin false 9) (leaf b!"-1.5..2") =
    .ok ⟨.fin true (3 / 2), .fin false 2⟩ := by decide +kernel
example : Bounds.ofNode (realFrom .double) (.fin true 9) (.fin false 9) (leaf b!"1...5") =
    .ok ⟨.fin false 1, .fin false (1 / 2)⟩ := by decide +kernel

/-- The same for integers. -/
theorem C92_int_range (lowest max : Int) (a : Bool) (cs : List (Str × PN)) (ws w hi : Str) (x : Int)
    (hws : ∀ c ∈ ws, IsSpace c) (h : Numeral w x) (hx : InRange 32 x) :
    Bounds.ofNode intFrom lowest max (.mk a (ws ++ w ++ b!".." ++ hi) cs) = (do
      let y ← intFrom hi
      .ok ⟨x, y⟩) := by
  have e1 : intFrom (ws ++ w ++ b!".." ++ hi) = .ok x := by
    unfold intFrom
    rw [List.append_assoc, readInt_numeral hws h (by simp) hx]
    rfl
  have e2 : intFrom (ws ++ w) = .ok x := by
    have := readInt_numeral (rest := []) hws h (by simp) hx
    rw [List.append_nil] at this
    unfold intFrom
    rw [this]
    rfl
  have hc : (ws ++ w).count 46 = 0 := by rw [List.count_append, space_count hws, numeral_count h]
  rw [ofNode_range intFrom lowest max a cs hi (by omega) ?_ (by rw [e1, e2]), e2, Res.bind_ok]
  intro hl
  have := List.mem_of_getLast? hl
  rw [List.count_eq_zero] at hc
  exact hc this

example : Bounds.ofNode intFrom 0 9 (leaf b!"-3..17") = .ok ⟨-3, 17⟩ := by decide +kernel

/-- The text at the first of the keys that exists. -/
def textAt (keys : List Str) (t : PN) : Option Str := keys.findSome? fun k => (firstChild k (kids t)).map value

/-- The text is read, if there is one. -/
def readOr {α : Type} (ofStr : Str → Res α) (dflt : α) : Option Str → Res α
  | none => .ok dflt
  | some v => ofStr v

theorem firstChild_text {cs ds : List (Str × PN)} (hk : cs.map Prod.fst = ds.map Prod.fst)
    (hc : ∀ p ∈ cs.zip ds, SameTree p.1.2 p.2.2) (k : Str) : (firstChild k cs).map value = (firstChild k ds).map value := by
  induction cs generalizing ds with
  | nil => cases ds <;> simp_all
  | cons c cs ih =>
    cases ds with
    | nil => simp at hk
    | cons d ds =>
      obtain ⟨k1, m⟩ := c
      obtain ⟨k2, n⟩ := d
      simp only [List.map_cons, List.cons.injEq] at hk
      obtain ⟨rfl, hk⟩ := hk
      have h1 : SameTree m n := hc ((k1, m), (k1, n)) (by simp)
      have h2 : m.value = n.value := by cases h1; rfl
      have := ih hk fun p hp => hc p (by simp [hp])
      unfold firstChild
      split <;> simp_all

theorem textAt_same {t' t : PN} (h : SameTree t' t) (keys : List Str) : textAt keys t' = textAt keys t := by
  cases h with
  | mk hk hc =>
    unfold textAt
    congr 1
    funext k
    exact firstChild_text hk hc k

theorem getAnyDef_text {α : Type} (ofStr : Str → Res α) (keys : List Str) (dflt : α) (t : PN) :
    ∃ t', SameTree t' t ∧ getAnyDef (castStr ofStr) keys dflt t = (do
      let x ← readOr ofStr dflt (textAt keys t)
      .ok (x, t')) := by
  rcases C28_get_any_default (castStr ofStr) keys dflt t with ⟨h1, t', h2, h3⟩ | ⟨ks1, k, ks2, c, t', h1, h2, h3, h4, h5⟩
  · refine ⟨t', h2, ?_⟩
    have : textAt keys t = none := by
      unfold textAt
      rw [List.findSome?_eq_none_iff]
      intro k hk
      rw [h1 k hk]; rfl
    rw [h3, this, readOr, Res.bind_ok]
  · refine ⟨t', h4, ?_⟩
    have : textAt keys t = some c.value := by
      unfold textAt
      rw [h1, List.findSome?_append, List.findSome?_eq_none_iff.2 fun k hk => by rw [h2 k hk]; rfl]
      simp [h3]
    rw [h5, this]
    obtain ⟨a, v, cs⟩ := c
    rfl

/-- A node without a value and with children: the text at `min`, or else at `lower`, is the lower bound, that at `max`, or else
at `upper`, the upper one; without them the bounds are the extreme values of the type. -/
theorem C92_keys {α : Type} (ofStr : Str → Res α) (lowest max : α) (a : Bool) (cs : List (Str × PN)) (h : cs ≠ []) :
    Bounds.ofNode ofStr lowest max (.mk a [] cs) = (do
      let x ← readOr ofStr lowest (textAt [b!"min", b!"lower"] (.mk a [] cs))
      let y ← readOr ofStr max (textAt [b!"max", b!"upper"] (.mk a [] cs))
      .ok ⟨x, y⟩) := by
  obtain ⟨t1, h1, e1⟩ := getAnyDef_text ofStr [b!"min", b!"lower"] lowest (.mk a [] cs)
  obtain ⟨t2, h2, e2⟩ := getAnyDef_text ofStr [b!"max", b!"upper"] max t1
  rw [textAt_same h1] at e2
  have hs : (PN.mk a [] cs).size > 0 := by cases cs <;> simp_all [size, children]
  unfold Bounds.ofNode
  rw [if_neg (by simp [hasValue, value]), if_pos hs, e1]
  cases readOr ofStr lowest (textAt [b!"min", b!"lower"] (.mk a [] cs)) with
  | ok x =>
    simp only [Res.bind_ok]
    rw [e2]
    cases readOr ofStr max (textAt [b!"max", b!"upper"] (.mk a [] cs)) <;> rfl
  | throws e => rfl
  | ub => rfl
  | diverges => rfl

example : Bounds.ofNode intFrom (-100) 100 (.mk false [] [(b!"upper", leaf b!"7"), (b!"lower", leaf b!"-2"), (b!"min", leaf b!"-1")]) =
    .ok ⟨-1, 7⟩ ∧
    Bounds.ofNode intFrom (-100) 100 (.mk false [] [(b!"max", leaf b!"7")]) = .ok ⟨-100, 7⟩ := by decide +kernel

/-- A node with neither is an error. -/
theorem C92_nothing {α : Type} (ofStr : Str → Res α) (lowest max : α) (a : Bool) :
    Bounds.ofNode ofStr lowest max (.mk a [] []) = .throws .flutError := rfl

/-- That the upper bound is what follows the two points is false if the lower one ends with a point, and bounds that are no
numbers are not reported for integers. -/
theorem C92_refuted :
    (∃ ofs : Flt, realFrom .double b!"1." = .ok (.fin false 1) ∧ realFrom .double b!"2" = .ok (.fin false 2) ∧
      Bounds.ofNode (realFrom .double) ofs ofs (leaf (b!"1." ++ b!".." ++ b!"2")) = .ok ⟨.fin false 1, .fin false (3602879701896397 / 18014398509481984)⟩) ∧
    Bounds.ofNode intFrom (-100) 100 (leaf b!"..5") = .ok ⟨0, 5⟩ ∧
    Bounds.ofNode intFrom (-100) 100 (leaf b!"5..") = .ok ⟨5, 0⟩ := by
  refine ⟨⟨.fin false 0, ?_⟩, ?_⟩ <;> decide +kernel

/-- Integer bounds written to a stream are read back, and the text after them and the delimiters is next. -/
theorem C92_stream (bits long : Nat) (hb : 1 ≤ bits) (hl : bits ≤ long) (b : Bounds Int) (hlo : InRange bits b.lower)
    (hup : InRange bits b.upper) (s : CharStream) (hd : c!" " ∈ s.delims) (hdig : ∀ c ∈ s.delims, c ∉ b!"-0123456789")
    (sep rest : Str) (hsep : ∀ c ∈ sep, c ∈ s.delims) (hrest : ∀ c ∈ rest.head?, c ≠ 0 ∧ c ∉ s.delims)
    (hne : ∀ c ∈ (sep ++ rest).head?, c ∉ b!"0123456789") (hin : s.rest = b.text intStr ++ (sep ++ rest)) :
    Bounds.read (readInt bits long) s = (b, { s with rest := rest, eof := s.eof || rest.isEmpty }) := by
  have hchar : ∀ c : Byte, (48 ≤ c.toNat ∧ c.toNat ≤ 57) → c ∈ b!"0123456789" := byte_all (by decide +kernel)
  have hchar2 : ∀ c : Byte, c ∈ b!"0123456789" → c ∈ b!"-0123456789" ∧ c ≠ 0 := byte_all (by decide +kernel)
  obtain ⟨d, ds, hu, hd2⟩ : ∃ d ds, intStr b.upper = d :: ds ∧ d ∈ b!"-0123456789" ∧ d ≠ 0 := by
    have hn := intStr_numeral b.upper
    unfold intStr at hn ⊢
    split
    · exact ⟨_, _, rfl, by decide, by decide⟩
    · obtain ⟨h1, h2⟩ := (natStr_digits b.upper.natAbs).1
      cases hx : natStr b.upper.natAbs with
      | nil => exact absurd hx h1
      | cons e es => exact ⟨e, es, rfl, hchar2 e (hchar e (h2 e (by rw [hx]; simp)))⟩
  obtain ⟨v1, r1, -, e1, -⟩ := C91_signed bits long hb hl s b.lower (intStr b.upper ++ (sep ++ rest))
    { text := ⟨[], intStr b.lower, b!" ", by rw [hin]; simp [Bounds.text], by simp, intStr_numeral _, by simpa using hd, by simp⟩
      stop := by
        intro c hc
        rw [hu] at hc
        simp only [List.cons_append, List.head?_cons, Option.mem_def, Option.some.injEq] at hc
        subst hc
        exact ⟨hd2.2, fun hm => hdig d hm hd2.1⟩ }
  obtain ⟨v2, r2, -, e2, -⟩ := C91_signed bits long hb hl
    { s with rest := intStr b.upper ++ (sep ++ rest), eof := s.eof || (intStr b.upper ++ (sep ++ rest)).isEmpty } b.upper rest
    { text := ⟨[], intStr b.upper, sep, by simp, by simp, intStr_numeral _, hsep, fun c hc h => hne c hc (hchar c h)⟩
      stop := hrest }
  have hemp : (intStr b.upper ++ (sep ++ rest)).isEmpty = false := by rw [hu]; rfl
  unfold Bounds.read
  rw [r1]
  simp only
  rw [r2, e1 hlo, e2 hup]
  simp [hemp]

example : Bounds.read (readInt 32 64) (ofCStr (Bounds.text intStr ⟨-5, 12⟩ ++ b!" x")) =
    (⟨-5, 12⟩, { ofCStr (Bounds.text intStr ⟨-5, 12⟩ ++ b!" x") with rest := b!"x" }) := by decide +kernel

end Flut
