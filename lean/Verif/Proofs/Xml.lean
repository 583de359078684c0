import Verif.Model.Xml
import Verif.Spec.Xml
import Mathlib.Tactic.Tauto

/-! # Lemmas on the XML parser -/

namespace Flut.Xml

open Flut.Spec.Xml (Item Attr Markup Body Blank Blanks Entity valueOf digitByte renderText textMeaning IsBlankText EndsAt NameByte
  AttrByte Name)

/-! ## Lists -/

theorem takeWhile_stop {p : Byte → Bool} : ∀ {a b : Str}, (∀ c ∈ a, p c = true) → (∀ c ∈ b.head?, p c = false) →
    (a ++ b).takeWhile p = a
  | [], b, _, hb => by
    cases b with
    | nil => rfl
    | cons c b => simp [hb c (by simp)]
  | x :: a, b, ha, hb => by
    have := takeWhile_stop (p := p) (a := a) (b := b) (fun c hc => ha c (by simp [hc])) hb
    simp [ha x (by simp), this]

theorem dropWhile_stop {p : Byte → Bool} : ∀ {a b : Str}, (∀ c ∈ a, p c = true) → (∀ c ∈ b.head?, p c = false) →
    (a ++ b).dropWhile p = b
  | [], b, _, hb => by
    cases b with
    | nil => rfl
    | cons c b => simp [hb c (by simp)]
  | x :: a, b, ha, hb => by
    have := dropWhile_stop (p := p) (a := a) (b := b) (fun c hc => ha c (by simp [hc])) hb
    simp [ha x (by simp), this]

theorem dropWhile_append_all {p : Byte → Bool} : ∀ {a b : Str}, (∀ c ∈ a, p c = true) → (a ++ b).dropWhile p = b.dropWhile p
  | [], b, _ => rfl
  | x :: a, b, ha => by
    have := dropWhile_append_all (p := p) (a := a) (b := b) (fun c hc => ha c (by simp [hc]))
    simp [ha x (by simp), this]

theorem length_dropWhile_le (p : Byte → Bool) (s : Str) : (s.dropWhile p).length ≤ s.length := by
  induction s with
  | nil => simp
  | cons c s ih =>
    simp only [List.dropWhile_cons]
    split
    · simp only [List.length_cons]; omega
    · simp

theorem isSpace_iff (c : Byte) : isSpace c = true ↔ Blank c := by simp [isSpace, Blank, or_assoc]

theorem isSpace_false {c : Byte} (h : ¬ Blank c) : isSpace c = false := by
  cases h' : isSpace c with
  | false => rfl
  | true => exact absurd ((isSpace_iff c).1 h') h

theorem blanks_space {s : Str} (h : Blanks s) : ∀ c ∈ s, isSpace c = true := fun c hc => (isSpace_iff c).2 (h c hc)

theorem isNameChar_iff (c : Byte) : isNameChar c = true ↔ NameByte c := by
  have := isSpace_iff c
  simp only [isNameChar, NameByte, Bool.not_eq_true', Bool.or_eq_false_iff, beq_eq_false_iff_ne, ← this]
  simp [and_assoc]

theorem isAttrChar_iff (c : Byte) : isAttrChar c = true ↔ AttrByte c := by
  have := isSpace_iff c
  simp only [isAttrChar, AttrByte, Bool.not_eq_true', Bool.or_eq_false_iff, beq_eq_false_iff_ne, ← this]
  simp [and_assoc]

theorem cstr_eq_self {s : Str} (h : ∀ c ∈ s, c ≠ 0) : cstr s = s := by
  have := takeWhile_stop (p := (· != 0)) (a := s) (b := []) (fun c hc => by simp [h c hc]) (by simp)
  simpa [cstr] using this

/-! ## Character references -/

theorem digitValue_digitByte : ∀ u, ∀ d < 16, digitValue (digitByte u d) = some d := by decide

theorem valueFrom_mod (base : Nat) : ∀ (ds : List Nat) (a : Nat),
    ds.foldl (fun a d => a * base + d) (a % 2 ^ 64) % 2 ^ 64 = ds.foldl (fun a d => a * base + d) a % 2 ^ 64
  | [], a => Nat.mod_mod _ _
  | d :: ds, a => by
    simp only [List.foldl_cons]
    rw [← valueFrom_mod base ds (a % 2 ^ 64 * base + d), ← valueFrom_mod base ds (a * base + d)]
    congr 2
    simp [Nat.add_mod, Nat.mul_mod]

theorem readCode_digits (base : Nat) (r : Str) : ∀ (ds : List (Bool × Nat)) (a : Nat), a < 2 ^ 64 → (∀ d ∈ ds, d.2 < 16) →
    readCode base a (ds.map (fun d => digitByte d.1 d.2) ++ 59 :: r) =
      ((ds.map Prod.snd).foldl (fun a d => a * base + d) a % 2 ^ 64, 59 :: r)
  | [], a, ha, _ => by
    have : digitValue 59 = none := by decide
    simp [readCode, this, Nat.mod_eq_of_lt ha]
  | d :: ds, a, ha, hd => by
    have h1 := digitValue_digitByte d.1 d.2 (hd d (by simp))
    have h3 := readCode_digits base r ds ((a * base + d.2) % 2 ^ 64) (Nat.mod_lt _ (by omega)) (fun x hx => hd x (by simp [hx]))
    simp only [List.map_cons, List.cons_append, readCode, h1, List.foldl_cons]
    rw [h3, valueFrom_mod]

theorem contByte_eq (n : Nat) : contByte n = UInt8.ofNat (n % 64 + 0x80) := by
  have h1 : ∀ x < 256, (UInt8.ofNat x ||| 0x80) &&& 0xBF = UInt8.ofNat (x % 64 + 0x80) := by decide +kernel
  have h2 : UInt8.ofNat n = UInt8.ofNat (n % 256) := by
    apply UInt8.toNat_inj.1
    simp
  have := h1 (n % 256) (Nat.mod_lt _ (by omega))
  rw [contByte, h2, this]
  congr 2
  omega

theorem codedChar_char (c : Char) : codedChar c.toNat = .ok (String.utf8EncodeChar c) := by
  have hv : c.toNat < 0x110000 := by
    have := c.valid
    simp only [UInt32.isValidChar, Nat.isValidChar] at this
    have h2 : c.toNat = c.val.toNat := rfl
    omega
  have h32 : ∀ x < 32, UInt8.ofNat x ||| 0xC0 = UInt8.ofNat (x % 0x20 + 0xc0) := by decide
  have h16 : ∀ x < 16, UInt8.ofNat x ||| 0xE0 = UInt8.ofNat (x % 0x10 + 0xe0) := by decide
  have h8 : ∀ x < 5, UInt8.ofNat x ||| 0xF0 = UInt8.ofNat (x % 0x08 + 0xf0) := by decide
  have e : c.val.toNat = c.toNat := rfl
  simp only [codedChar, String.utf8EncodeChar, contByte_eq, Nat.shiftRight_eq_div_pow, e]
  generalize c.toNat = v at hv
  by_cases h1 : v < 0x80
  · rw [if_pos h1, if_pos (by omega)]
  rw [if_neg h1, if_neg (show ¬ v ≤ 0x7f by omega)]
  by_cases h2 : v < 0x800
  · rw [if_pos h2, if_pos (by omega), h32 _ (by omega)]
  rw [if_neg h2, if_neg (show ¬ v ≤ 0x7ff by omega)]
  by_cases h3 : v < 0x10000
  · rw [if_pos h3, if_pos (by omega), h16 _ (by omega)]
  rw [if_neg h3, if_neg (show ¬ v ≤ 0xffff by omega), if_pos hv, h8 _ (by omega)]

theorem utf8_ne_zero {c : Char} (h : c.toNat ≠ 0) : ∀ b ∈ String.utf8EncodeChar c, b ≠ 0 := by
  have e : c.val.toNat = c.toNat := rfl
  have key : ∀ n, 0 < n % 256 → UInt8.ofNat n ≠ 0 := by
    intro n hn h0
    have := congrArg UInt8.toNat h0
    simp at this
    omega
  intro b hb
  simp only [String.utf8EncodeChar, e] at hb
  split at hb
  · simp only [List.mem_singleton] at hb; subst hb; exact key _ (by omega)
  split at hb
  · simp only [List.mem_cons, List.not_mem_nil, or_false] at hb
    rcases hb with rfl | rfl <;> exact key _ (by omega)
  split at hb
  · simp only [List.mem_cons, List.not_mem_nil, or_false] at hb
    rcases hb with rfl | rfl | rfl <;> exact key _ (by omega)
  · simp only [List.mem_cons, List.not_mem_nil, or_false] at hb
    rcases hb with rfl | rfl | rfl | rfl <;> exact key _ (by omega)

theorem expandN_lit (p : Byte → Bool) (n : Nat) (c : Byte) (s : Str) (hp : p c = true) (hc : c ≠ 38) :
    expandN p (n + 1) (c :: s) = (do let (t, r) ← expandN p n s; .ok (c :: t, r)) := by
  simp [expandN, hp, hc]

theorem digitByte_ne (u : Bool) (d : Nat) (hd : d < 16) : digitByte u d ≠ 120 ∧ digitByte u d ≠ 60 ∧ digitByte u d ≠ 0 ∧
    digitByte u d ≠ 34 ∧ digitByte u d ≠ 39 ∧ ¬ Blank (digitByte u d) := by
  have : ∀ u, ∀ d < 16, digitByte u d ≠ 120 ∧ digitByte u d ≠ 60 ∧ digitByte u d ≠ 0 ∧ digitByte u d ≠ 34 ∧
    digitByte u d ≠ 39 ∧ ¬ Blank (digitByte u d) := by decide
  exact this u d hd

theorem not_x_prefix (ds : List Nat) (hd : ∀ d ∈ ds, d < 16) (r : Str) :
    b!"#x".isPrefixOf (35 :: (ds.map (digitByte false) ++ 59 :: r)) = false := by
  cases ds with
  | nil => rfl
  | cons d ds =>
    have := (digitByte_ne false d (hd d (by simp))).1
    simp [List.isPrefixOf, Ne.symm this]

/-- One piece of text is decoded. -/
theorem expandN_item (p : Byte → Bool) (hp : p 38 = true) (stop : Byte) (hs : ∀ c, c ≠ 0 → c ≠ stop → p c = true) (i : Item)
    (hi : i.Valid stop) (n : Nat) (s : Str) :
    expandN p (n + 1) (i.render ++ s) = (do let (t, r) ← expandN p n s; .ok (i.meaning ++ t, r)) := by
  cases i with
  | lit c => exact expandN_lit p n c s (hs c hi.1 hi.2.2) hi.2.1
  | named e =>
    cases e <;> simp [Item.render, Entity.render, expandN, hp, Item.meaning, Entity.meaning]
  | dec ds c =>
    obtain ⟨h1, h2, h3⟩ := hi
    have hd : ∀ d ∈ ds, d < 16 := fun d h => by have := h1 d h; omega
    have em : (ds.map (Prod.mk false)).map Prod.snd = ds := by rw [List.map_map]; exact List.map_id ds
    have h4 := readCode_digits 10 s (ds.map (Prod.mk false)) 0 (by omega) (by simpa using hd)
    rw [em, List.map_map] at h4
    replace h4 : readCode 10 0 (ds.map (digitByte false) ++ 59 :: s) = _ := h4
    have h5 := not_x_prefix ds hd s
    have h6 : ds.foldl (fun a d => a * 10 + d) 0 % 2 ^ 64 = c.toNat := h2
    simp only [Item.render, List.append_assoc, List.cons_append, List.nil_append, expandN, hp, if_true, h5]
    rw [h6] at h4
    simp [h4, codedChar_char, Item.meaning]
  | hex ds c =>
    obtain ⟨h1, h2, h3⟩ := hi
    have h4 := readCode_digits 16 s ds 0 (by omega) h1
    have h6 : (ds.map Prod.snd).foldl (fun a d => a * 16 + d) 0 % 2 ^ 64 = c.toNat := h2
    simp only [Item.render, List.append_assoc, List.cons_append, List.nil_append, expandN, hp, if_true]
    rw [h6] at h4
    simp [h4, codedChar_char, Item.meaning]

theorem render_ne_nil (i : Item) : 1 ≤ i.render.length := by
  cases i with
  | named e => cases e <;> simp [Item.render, Entity.render]
  | _ => simp [Item.render]

theorem expandN_text (p : Byte → Bool) (hp : p 38 = true) (stop : Byte) (hs : ∀ c, c ≠ 0 → c ≠ stop → p c = true) (rest : Str)
    (hr : ∀ c ∈ rest.head?, p c = false) : ∀ (t : List Item) (n : Nat), (∀ i ∈ t, i.Valid stop) → (renderText t).length < n →
    expandN p n (renderText t ++ rest) = .ok (textMeaning t, rest)
  | [], n, _, hn => by
    obtain ⟨n, rfl⟩ : ∃ m, n = m + 1 := ⟨n - 1, by omega⟩
    cases rest with
    | nil => rfl
    | cons c r =>
      have := hr c (by simp)
      simp [renderText, expandN, this, textMeaning]
  | i :: t, n, ht, hn => by
    obtain ⟨n, rfl⟩ : ∃ m, n = m + 1 := ⟨n - 1, by omega⟩
    have h1 := render_ne_nil i
    simp only [renderText, List.flatMap_cons, List.length_append] at hn
    have ih := expandN_text p hp stop hs rest hr t n (fun j hj => ht j (by simp [hj])) (by simp only [renderText]; omega)
    have := expandN_item p hp stop hs i (ht i (by simp)) n (renderText t ++ rest)
    simp only [renderText, List.flatMap_cons, List.append_assoc] at this ih ⊢
    rw [this, ih]
    simp [textMeaning]

theorem expand_text (p : Byte → Bool) (hp : p 38 = true) (stop : Byte) (hs : ∀ c, c ≠ 0 → c ≠ stop → p c = true) (rest : Str)
    (hr : ∀ c ∈ rest.head?, p c = false) (t : List Item) (ht : ∀ i ∈ t, i.Valid stop) :
    expand p (renderText t ++ rest) = .ok (textMeaning t, rest) :=
  expandN_text p hp stop hs rest hr t _ ht (by simp only [List.length_append]; omega)

/-! ## Texts -/

theorem item_bytes {stop : Byte} {i : Item} (hi : i.Valid stop) : ∀ c ∈ i.meaning, c ≠ 0 := by
  cases i with
  | lit c => simp only [Item.meaning, List.mem_singleton]; rintro _ rfl; exact hi.1
  | named e => cases e <;> simp [Item.meaning, Entity.meaning]
  | dec ds c => exact utf8_ne_zero hi.2.2
  | hex ds c => exact utf8_ne_zero hi.2.2

theorem text_bytes {stop : Byte} {t : List Item} (ht : ∀ i ∈ t, i.Valid stop) : ∀ c ∈ textMeaning t, c ≠ 0 := by
  intro c hc
  simp only [textMeaning, List.mem_flatMap] at hc
  obtain ⟨i, hi, hc⟩ := hc
  exact item_bytes (ht i hi) c hc

theorem meaning_ne_nil (i : Item) : i.meaning ≠ [] := by
  cases i with
  | lit c => simp [Item.meaning]
  | named e => simp [Item.meaning]
  | dec ds c => exact String.utf8EncodeChar_ne_nil
  | hex ds c => exact String.utf8EncodeChar_ne_nil

theorem item_render_bytes {stop : Byte} (hs : stop = 60 ∨ stop = 34 ∨ stop = 39) {i : Item} (hi : i.Valid stop) :
    ∀ c ∈ i.render, c ≠ 0 ∧ c ≠ stop := by
  have h0 : ∀ b ∈ b!"&#x;", b ≠ 0 ∧ b ≠ stop := by
    rcases hs with rfl | rfl | rfl <;> decide
  cases i with
  | lit c => simp only [Item.render, List.mem_singleton]; rintro _ rfl; exact ⟨hi.1, hi.2.2⟩
  | named e =>
    rcases hs with rfl | rfl | rfl <;> cases e <;> simp [Item.render, Entity.render]
  | dec ds c =>
    intro b hb
    have key : ∀ d ∈ ds, digitByte false d ≠ 0 ∧ digitByte false d ≠ stop := fun d hd => by
      have := digitByte_ne false d (by have := hi.1 d hd; omega)
      rcases hs with rfl | rfl | rfl <;> simp_all
    simp only [Item.render, List.mem_append, List.mem_map] at hb
    rcases hb with (hb | ⟨d, hd, rfl⟩) | hb
    · exact h0 b (by simp only [List.mem_cons, List.not_mem_nil, or_false] at hb ⊢; tauto)
    · exact key d hd
    · exact h0 b (by simp only [List.mem_cons, List.not_mem_nil, or_false] at hb ⊢; tauto)
  | hex ds c =>
    intro b hb
    have key : ∀ d ∈ ds, digitByte d.1 d.2 ≠ 0 ∧ digitByte d.1 d.2 ≠ stop := fun d hd => by
      have := digitByte_ne d.1 d.2 (hi.1 d hd)
      rcases hs with rfl | rfl | rfl <;> simp_all
    simp only [Item.render, List.mem_append, List.mem_map] at hb
    rcases hb with (hb | ⟨d, hd, rfl⟩) | hb
    · exact h0 b (by simp only [List.mem_cons, List.not_mem_nil, or_false] at hb ⊢; tauto)
    · exact key d hd
    · exact h0 b (by simp only [List.mem_cons, List.not_mem_nil, or_false] at hb ⊢; tauto)

theorem text_render_bytes {stop : Byte} (hs : stop = 60 ∨ stop = 34 ∨ stop = 39) {t : List Item} (ht : ∀ i ∈ t, i.Valid stop) :
    ∀ c ∈ renderText t, c ≠ 0 ∧ c ≠ stop := by
  intro c hc
  simp only [renderText, List.mem_flatMap] at hc
  obtain ⟨i, hi, hc⟩ := hc
  exact item_render_bytes hs (ht i hi) c hc

/-! ## Marks -/

theorem EndsAt.tail {mark : Str} {c : Byte} {s : Str} (h : EndsAt mark (c :: s)) : EndsAt mark s :=
  ⟨fun b hb => h.1 b (by simp [hb]), fun a b e => h.2 (c :: a) b (by simp [e])⟩

theorem EndsAt.not_prefix {mark : Str} {c : Byte} {s : Str} (h : EndsAt mark (c :: s)) (tail : Str) :
    mark.isPrefixOf (c :: s ++ mark ++ tail) = false := by
  cases e : mark.isPrefixOf (c :: s ++ mark ++ tail) with
  | false => rfl
  | true =>
    have hp : mark <+: c :: s ++ mark ++ tail := List.isPrefixOf_iff_prefix.1 e
    have hp' : mark <+: c :: s ++ mark :=
      List.prefix_of_prefix_length_le hp (List.prefix_append _ _) (by simp; omega)
    obtain ⟨b, hb⟩ := hp'
    have := h.2 [] b (by simpa using hb.symm)
    subst this
    have := congrArg List.length hb
    simp at this
    omega

theorem skipTo_end {mark : Str} (hm : mark ≠ []) (tail : Str) : ∀ {s : Str}, EndsAt mark s →
    skipTo mark (s ++ mark ++ tail) = .ok tail
  | [], _ => by
    obtain ⟨m, ms, rfl⟩ := List.exists_cons_of_ne_nil hm
    have h : (m :: ms).isPrefixOf (m :: (ms ++ tail)) = true := List.isPrefixOf_iff_prefix.2 (by simp)
    simp only [List.nil_append, List.cons_append, skipTo, h, if_true]
    simp
  | c :: s, h => by
    have h1 := EndsAt.not_prefix h tail
    have ih := skipTo_end hm tail (EndsAt.tail h)
    simp only [List.cons_append, List.append_assoc] at h1 ih ⊢
    simp only [skipTo, h1]
    simpa using ih

theorem isDecl_drop {s : Str} (tail : Str) (h : isDecl (s ++ b!"?>" ++ tail) = true) :
    ∃ x m l sp s', s = x :: m :: l :: sp :: s' := by
  match s, h with
  | [], h => rcases tail with _ | ⟨_, _ | ⟨_, _⟩⟩ <;> simp [isDecl] at h
  | [x], h => rcases tail with _ | ⟨_, _⟩ <;> simp [isDecl] at h
  | [x, m], h => simp [isDecl] at h
  | [x, m, l], h => simp [isDecl, isSpace] at h
  | x :: m :: l :: sp :: s', _ => exact ⟨_, _, _, _, _, rfl⟩

theorem skipDoctype_text {inside : Bool} {s : Str} (h : Spec.Xml.DoctypeText inside s) : ∀ (d : Nat) (r : Str), inside = decide (0 < d) →
    skipDoctype d (s ++ r) = skipDoctype d r := by
  induction h with
  | nil => intro d r _; rfl
  | @char inside c s h0 h1 h2 _ ih =>
    intro d r hd
    subst hd
    have e := ih d r rfl
    cases d with
    | zero =>
      have h2' : c ≠ 62 := by simpa using h2
      rw [List.cons_append, skipDoctype, if_neg h2', if_neg h1, e]
    | succ d =>
      have h2' : c ≠ 93 := by simpa using h2
      rw [List.cons_append, skipDoctype, if_neg h1, if_neg h2', e]
  | @brackets inside s t _ _ ih1 ih2 =>
    intro d r hd
    have e1 : b!"[" ++ s ++ b!"]" ++ t ++ r = 91 :: (s ++ 93 :: (t ++ r)) := by simp
    rw [e1]
    have e2 : skipDoctype d (91 :: (s ++ 93 :: (t ++ r))) = skipDoctype (d + 1) (s ++ 93 :: (t ++ r)) := by
      cases d <;> simp [skipDoctype]
    rw [e2, ih1 (d + 1) _ (by simp), ← ih2 d r hd]
    simp [skipDoctype]

theorem doctypeText_nz {inside : Bool} {s : Str} (h : Spec.Xml.DoctypeText inside s) : ∀ c ∈ s, c ≠ 0 := by
  induction h with
  | nil => simp
  | char h0 _ _ _ ih =>
    intro x hx
    rcases List.mem_cons.1 hx with rfl | hx
    · exact h0
    · exact ih x hx
  | brackets _ _ ih1 ih2 =>
    intro x hx
    simp only [List.mem_append, List.mem_cons, List.not_mem_nil, or_false] at hx
    rcases hx with ((rfl | hx) | rfl) | hx
    · decide
    · exact ih1 x hx
    · decide
    · exact ih2 x hx

/-! ## Attributes -/

theorem attr_quote (a : Attr) : a.quote = 39 ∨ a.quote = 34 := by
  unfold Attr.quote
  cases a.double <;> simp

theorem isAttrChar_space {c : Byte} (h : Blank c) : isAttrChar c = false := by
  cases e : isAttrChar c with
  | false => rfl
  | true => exact absurd h ((isAttrChar_iff c).1 e).2.1

theorem head_blanks_eq {p : Byte → Bool} {a : Str} {x : Byte} {r : Str} (ha : ∀ c ∈ a, p c = false) (hx : p x = false) :
    ∀ c ∈ (a ++ x :: r).head?, p c = false := by
  cases a with
  | nil => simpa using hx
  | cons y a => simpa using ha y (by simp)

theorem parseAttrs_one (n : Nat) (a : Attr) (ha : a.Valid) (s : Str) :
    parseAttrsN (n + 1) ((a.render ++ s).dropWhile isSpace) =
      (do let (rest, r) ← parseAttrsN n (s.dropWhile isSpace); .ok ((a.name, textMeaning a.value) :: rest, r)) := by
  obtain ⟨h1, h2, h3, h4, h5, h6, h7⟩ := ha
  obtain ⟨x, xs, hname⟩ := List.exists_cons_of_ne_nil h3
  have hx := h4 x (by simp [hname])
  have e1 : (a.render ++ s).dropWhile isSpace =
      a.name ++ (a.beforeEq ++ 61 :: (a.afterEq ++ a.quote :: (renderText a.value ++ a.quote :: s))) := by
    have : a.render ++ s = a.before ++ (a.name ++ (a.beforeEq ++ 61 :: (a.afterEq ++ a.quote :: (renderText a.value ++ a.quote :: s)))) := by
      simp [Attr.render]
    rw [this]
    exact dropWhile_stop (blanks_space h2) (by simp [hname]; exact isSpace_false hx.2.1)
  have hstop : ∀ c ∈ (a.beforeEq ++ 61 :: (a.afterEq ++ a.quote :: (renderText a.value ++ a.quote :: s))).head?,
      isAttrChar c = false := head_blanks_eq (fun c hc => isAttrChar_space (h5 c hc)) (by decide)
  have hall : ∀ c ∈ a.name, isAttrChar c = true := fun c hc => (isAttrChar_iff c).2 (h4 c hc)
  have e2 := takeWhile_stop hall hstop
  have e3 := dropWhile_stop hall hstop
  have e4 : (a.beforeEq ++ 61 :: (a.afterEq ++ a.quote :: (renderText a.value ++ a.quote :: s))).dropWhile isSpace =
      61 :: (a.afterEq ++ a.quote :: (renderText a.value ++ a.quote :: s)) :=
    dropWhile_stop (blanks_space h5) (by simp; decide)
  have hq : isSpace a.quote = false := by rcases attr_quote a with h | h <;> rw [h] <;> decide
  have e5 : (a.afterEq ++ a.quote :: (renderText a.value ++ a.quote :: s)).dropWhile isSpace =
      a.quote :: (renderText a.value ++ a.quote :: s) := dropWhile_stop (blanks_space h6) (by simpa using hq)
  have e6 : expand (isAttrData a.quote) (renderText a.value ++ a.quote :: s) = .ok (textMeaning a.value, a.quote :: s) := by
    apply expand_text _ _ a.quote _ _ _ _ h7
    · rcases attr_quote a with h | h <;> rw [h] <;> decide
    · intro c hc hc'; simp [isAttrData, hc, hc']
    · simp [isAttrData]
  rw [e1]
  simp only [parseAttrsN, e2, e3, e4, e5, e6]
  have hne : a.name.isEmpty = false := by simp [hname]
  simp [hne, attr_quote a]

theorem parseAttrs_all (sp tail : Str) (hsp : Blanks sp) (c : Byte) (t : Str) (ht : tail = c :: t) (hc : c = 62 ∨ c = 47) :
    ∀ (attrs : List Attr) (n : Nat), (∀ a ∈ attrs, a.Valid) → attrs.length < n →
    parseAttrsN n ((attrs.flatMap Attr.render ++ sp ++ tail).dropWhile isSpace) =
      .ok (attrs.map fun a => (a.name, textMeaning a.value), tail)
  | [], n, _, hn => by
    obtain ⟨n, rfl⟩ : ∃ m, n = m + 1 := ⟨n - 1, by omega⟩
    have h1 : isSpace c = false := by rcases hc with rfl | rfl <;> decide
    have h2 : isAttrChar c = false := by rcases hc with rfl | rfl <;> decide
    have e : (sp ++ tail).dropWhile isSpace = tail := dropWhile_stop (blanks_space hsp) (by simpa [ht] using h1)
    simp only [List.flatMap_nil, List.nil_append, e]
    simp [parseAttrsN, ht, h2]
  | a :: attrs, n, ha, hn => by
    obtain ⟨n, rfl⟩ : ∃ m, n = m + 1 := ⟨n - 1, by omega⟩
    simp only [List.length_cons] at hn
    have ih := parseAttrs_all sp tail hsp c t ht hc attrs n (fun x hx => ha x (by simp [hx])) (by omega)
    have h := parseAttrs_one n a (ha a (by simp)) (attrs.flatMap Attr.render ++ sp ++ tail)
    simp only [List.flatMap_cons, List.append_assoc] at h ih ⊢
    rw [h, ih]
    simp

theorem attrs_length (attrs : List Attr) (ha : ∀ a ∈ attrs, a.Valid) : 2 * attrs.length ≤ (attrs.flatMap Attr.render).length := by
  induction attrs with
  | nil => simp
  | cons a attrs ih =>
    have h2 := ih (fun x hx => ha x (by simp [hx]))
    have h1 := ha a (by simp)
    have h3 : 2 ≤ a.render.length := by simp [Attr.render]; omega
    simp only [List.flatMap_cons, List.length_append, List.length_cons]
    omega

/-! ## Elements and bodies -/

theorem parseContents_close (n : Nat) (v : Str) (cs : List Node) (s name csp tail : Str)
    (hs : s.dropWhile isSpace = 60 :: 47 :: (name ++ csp ++ 62 :: tail)) (hn : ∀ c ∈ name, NameByte c) (hc : Blanks csp) :
    parseContents (n + 1) v cs s = .ok (v, cs, tail) := by
  have h1 : (name ++ (csp ++ 62 :: tail)).dropWhile isNameChar = csp ++ 62 :: tail := by
    apply dropWhile_stop (fun c h => (isNameChar_iff c).2 (hn c h))
    apply head_blanks_eq _ (by decide)
    intro c h
    cases e : isNameChar c with
    | false => rfl
    | true => exact absurd (hc c h) ((isNameChar_iff c).1 e).2.1
  have h2 : (csp ++ 62 :: tail).dropWhile isSpace = 62 :: tail := dropWhile_stop (blanks_space hc) (by simp; decide)
  rw [List.append_assoc] at hs
  simp only [parseContents, hs, h1, h2]

theorem parseContents_node (n : Nat) (v : Str) (cs : List Node) (s t : Str) (hs : s.dropWhile isSpace = 60 :: t)
    (ht : t.head? ≠ some 47) :
    parseContents (n + 1) v cs s = (do let (nd, r) ← parseNode n t; parseContents n v (cs ++ nd.toList) r) := by
  rw [parseContents]
  cases t with
  | nil => simp [hs]
  | cons x t =>
    have hx : x ≠ 47 := by simpa using ht
    split
    · rename_i h; rw [hs] at h; simp at h
    · rename_i h; rw [hs] at h; simp at h; exact absurd h.1 hx
    · rename_i h1 h; rw [hs] at h; simp at h; rw [← h]
    · rename_i h; exact absurd hs (h _)

theorem parseContents_data (n : Nat) (v : Str) (cs : List Node) (s t : Str) (c : Byte) (hs : s.dropWhile isSpace = c :: t)
    (hc : c ≠ 60) :
    parseContents (n + 1) v cs s = (do
      let (d, r) ← expand isTextChar s
      parseContents n (if (cstr v).isEmpty then d else v) (cs ++ [.mk .data [] d [] []]) r) := by
  rw [parseContents]
  split
  · rename_i h; rw [hs] at h; simp at h
  · rename_i h; rw [hs] at h; simp at h; exact absurd h.1 hc
  · rename_i h; rw [hs] at h; simp at h; exact absurd h.1 hc
  · rfl

theorem parseNode_element (n : Nat) (c : Byte) (s : Str) (h1 : c ≠ 63) (h2 : c ≠ 33) :
    parseNode (n + 1) (c :: s) = parseElement n (c :: s) := by
  rw [parseNode]
  · intro t h; simp at h; exact h1 h.1
  · intro t h; simp at h; exact h2 h.1

theorem getXmlChildren_append (a b : List Node) : getXmlChildren (a ++ b) = getXmlChildren a ++ getXmlChildren b := by
  induction a with
  | nil => simp [getXmlChildren]
  | cons x a ih =>
    simp only [List.cons_append, getXmlChildren]
    split <;> simp [ih]

theorem attrNodes_eq (attrs : List Attr) (h : ∀ a ∈ attrs, a.Valid) :
    (attrs.map fun a => (a.name, textMeaning a.value)).map (fun a => (cstr a.1, PN.leaf (cstr a.2))) =
      Flut.Spec.Xml.attrNodes attrs := by
  simp only [List.map_map, Flut.Spec.Xml.attrNodes]
  apply List.map_congr_left
  intro a ha
  have h1 := h a ha
  simp [cstr_eq_self (fun c hc => (h1.2.2.2.1 c hc).1), cstr_eq_self (text_bytes h1.2.2.2.2.2.2), PN.leaf]

/-- What the parser makes of markup. -/
def NodeOk (m : Markup) (o : Option Node) : Prop :=
  (∀ x ∈ o, x.name ≠ []) ∧ getXmlChildren o.toList = m.meaning

theorem element_start {name sp : Str} {attrs : List Attr} (hn : Name name) (ha : ∀ a ∈ attrs, a.Valid) (hs : Blanks sp) (c : Byte)
    (t : Str) (hc : c = 62 ∨ c = 47) :
    (name ++ (attrs.flatMap Attr.render ++ (sp ++ c :: t))).takeWhile isNameChar = name ∧
    parseAttrs (((name ++ (attrs.flatMap Attr.render ++ (sp ++ c :: t))).dropWhile isNameChar).dropWhile isSpace) =
      .ok (attrs.map fun a => (a.name, textMeaning a.value), c :: t) := by
  have hall : ∀ b ∈ name, isNameChar b = true := fun b hb => (isNameChar_iff b).2 (hn.2.1 b hb)
  have hstop : ∀ b ∈ (attrs.flatMap Attr.render ++ (sp ++ c :: t)).head?, isNameChar b = false := by
    cases attrs with
    | nil =>
      simp only [List.flatMap_nil, List.nil_append]
      apply head_blanks_eq
      · intro b hb
        cases e : isNameChar b with
        | false => rfl
        | true => exact absurd (hs b hb) ((isNameChar_iff b).1 e).2.1
      · rcases hc with rfl | rfl <;> decide
    | cons a attrs =>
      have h1 := ha a (by simp)
      obtain ⟨x, xs, hx⟩ := List.exists_cons_of_ne_nil h1.1
      have hb := h1.2.1 x (by simp [hx])
      simp only [List.flatMap_cons, Attr.render, hx, List.cons_append, List.head?_cons, Option.mem_def, Option.some.injEq]
      rintro b rfl
      cases e : isNameChar x with
      | false => rfl
      | true => exact absurd hb ((isNameChar_iff x).1 e).2.1
  refine ⟨takeWhile_stop hall hstop, ?_⟩
  rw [dropWhile_stop hall hstop, ← List.append_assoc]
  apply parseAttrs_all sp (c :: t) hs c t rfl hc attrs _ ha
  have h1 := attrs_length attrs ha
  have h2 : attrs.length ≤ ((attrs.flatMap Attr.render ++ sp ++ c :: t).dropWhile isSpace).length := by
    cases attrs with
    | nil => simp
    | cons a r =>
      have ha1 := ha a (by simp)
      obtain ⟨x, xs, hx⟩ := List.exists_cons_of_ne_nil ha1.2.2.1
      have hr := attrs_length r (fun y hy => ha y (by simp [hy]))
      have e : (a :: r).flatMap Attr.render ++ sp ++ c :: t = a.before ++ (x :: (xs ++ a.beforeEq ++ b!"=" ++ a.afterEq ++ [a.quote] ++
          renderText a.value ++ [a.quote] ++ (r.flatMap Attr.render ++ sp ++ c :: t))) := by
        simp [Attr.render, hx]
      rw [e, dropWhile_stop (blanks_space ha1.2.1)]
      · simp only [List.length_cons, List.length_append]; omega
      · simp only [List.head?_cons, Option.mem_def, Option.some.injEq]
        rintro b rfl
        exact isSpace_false (ha1.2.2.2.1 x (by simp [hx])).2.1
  omega

theorem element_children (name v : Str) (attrs : List Attr) (cs : List Node) (hn : Name name) (ha : ∀ a ∈ attrs, a.Valid) :
    getXmlChildren [.mk .element name v (attrs.map fun a => (a.name, textMeaning a.value)) cs] =
      [(name, .mk false (cstr v) (Flut.Spec.Xml.attrNodes attrs ++ getXmlChildren cs))] := by
  have hlen : name.length > 0 := List.length_pos_iff.2 hn.1
  simp only [getXmlChildren, Node.name, hlen, if_true, getXmlNode, attrNodes_eq attrs ha,
    cstr_eq_self (fun c hc => (hn.2.1 c hc).1)]

theorem markup_head {m : Markup} (h : m.Valid) : ∃ x t, m.render = 60 :: x :: t ∧ x ≠ 47 := by
  cases h with
  | empty h1 =>
    obtain ⟨x, xs, hx⟩ := List.exists_cons_of_ne_nil h1.1
    subst hx
    exact ⟨x, _, by simp [Markup.render]; rfl, (h1.2.1 x (by simp)).2.2.1⟩
  | elem h1 =>
    obtain ⟨x, xs, hx⟩ := List.exists_cons_of_ne_nil h1.1
    subst hx
    exact ⟨x, _, by simp [Markup.render]; rfl, (h1.2.1 x (by simp)).2.2.1⟩
  | comment => exact ⟨33, _, by simp [Markup.render]; rfl, by decide⟩
  | instruction => exact ⟨63, _, by simp [Markup.render]; rfl, by decide⟩
  | doctype => exact ⟨33, _, by simp [Markup.render]; rfl, by decide⟩

theorem blank_text {t : List Item} (h : IsBlankText t) (r : Str) : (renderText t ++ 60 :: r).dropWhile isSpace = 60 :: r :=
  dropWhile_stop (blanks_space h) (by simp; decide)

theorem dropWhile_some {p : Byte → Bool} : ∀ {s : Str} (r : Str), (∃ c ∈ s, p c = false) →
    ∃ c t, (s ++ r).dropWhile p = c :: t ∧ c ∈ s
  | [], _, h => by obtain ⟨c, hc, _⟩ := h; simp at hc
  | x :: s, r, h => by
    cases hx : p x with
    | false => exact ⟨x, s ++ r, by simp [hx], by simp⟩
    | true =>
      obtain ⟨c, hc, hp⟩ := h
      rcases List.mem_cons.1 hc with rfl | hc
      · simp [hx] at hp
      · obtain ⟨c', t, h1, h2⟩ := dropWhile_some r ⟨c, hc, hp⟩
        exact ⟨c', t, by simp [hx, h1], by simp [h2]⟩

theorem nonblank_text {t : List Item} (ht : ∀ i ∈ t, i.Valid 60) (h : ¬ IsBlankText t) (r : Str) :
    ∃ c s, (renderText t ++ r).dropWhile isSpace = c :: s ∧ c ≠ 60 := by
  have : ∃ c ∈ renderText t, isSpace c = false := by
    apply Classical.byContradiction
    intro hno
    apply h
    intro c hc
    apply (isSpace_iff c).1
    cases e : isSpace c with
    | true => rfl
    | false => exact absurd ⟨c, hc, e⟩ hno
  obtain ⟨c, s, h1, h2⟩ := dropWhile_some r this
  exact ⟨c, s, h1, (text_render_bytes (.inl rfl) ht c h2).2⟩

theorem textMeaning_ne_nil {t : List Item} (h : ¬ IsBlankText t) : textMeaning t ≠ [] := by
  cases t with
  | nil => exact absurd (by simp [IsBlankText, renderText]) h
  | cons i t =>
    have := meaning_ne_nil i
    simp [textMeaning, this]

theorem expand_body {t : List Item} (ht : ∀ i ∈ t, i.Valid 60) (r : Str) :
    expand isTextChar (renderText t ++ 60 :: r) = .ok (textMeaning t, 60 :: r) := by
  apply expand_text _ (by decide) 60 _ _ _ _ ht
  · intro c h1 h2; simp [isTextChar, h1, h2]
  · simp; decide

/-- The value after a text that is more than blanks. -/
theorem cstr_value {t : List Item} (ht : ∀ i ∈ t, i.Valid 60) (v : Str) :
    cstr (if (cstr v).isEmpty then textMeaning t else v) = if (cstr v).isEmpty then textMeaning t else cstr v := by
  split
  · exact cstr_eq_self (text_bytes ht)
  · rfl

theorem data_children (cs : List Node) (d : Str) : getXmlChildren (cs ++ [.mk .data [] d [] []]) = getXmlChildren cs := by
  simp [getXmlChildren_append, getXmlChildren, Node.name]

mutual
theorem parseNode_markup : ∀ (m : Markup), m.Valid → ∀ (tail : Str) (n : Nat), 2 * (m.render ++ tail).length ≤ n →
    ∃ o, parseNode n ((m.render ++ tail).drop 1) = .ok (o, tail) ∧ NodeOk m o
  | .empty name attrs sp, hv, tail, n, hn => by
    cases hv with
    | empty h1 h2 h3 =>
    obtain ⟨n, rfl⟩ : ∃ k, n = k + 2 := ⟨n - 2, by simp [Markup.render] at hn; omega⟩
    obtain ⟨x, xs, hx⟩ := List.exists_cons_of_ne_nil h1.1
    have hx1 := h1.2.1 x (by simp [hx])
    have hx2 : x ≠ 33 := by have := h1.2.2; simpa [hx] using this
    have e := element_start h1 h2 h3 47 (62 :: tail) (.inr rfl)
    have e1 : (Markup.render (.empty name attrs sp) ++ tail).drop 1 = name ++ (attrs.flatMap Attr.render ++ (sp ++ 47 :: 62 :: tail)) := by
      simp [Markup.render]
    rw [e1]
    refine ⟨some (.mk .element name [] (attrs.map fun a => (a.name, textMeaning a.value)) []), ?_, ?_, ?_⟩
    · have e2 : name ++ (attrs.flatMap Attr.render ++ (sp ++ 47 :: 62 :: tail)) =
          x :: (xs ++ (attrs.flatMap Attr.render ++ (sp ++ 47 :: 62 :: tail))) := by simp [hx]
      rw [e2, parseNode_element _ _ _ hx1.2.2.2.2 hx2, ← e2]
      simp [parseElement, e.1, e.2, h1.1]
    · simp only [Option.mem_def, Option.some.injEq]
      rintro y rfl
      exact h1.1
    · rw [Option.toList_some, element_children name [] attrs [] h1 h2]
      simp [Markup.meaning, getXmlChildren, cstr]
  | .elem name attrs sp body csp, hv, tail, n, hn => by
    cases hv with
    | elem h1 h2 h3 h4 h5 =>
    have hlen : 2 * (name ++ (attrs.flatMap Attr.render ++ (sp ++ 62 :: (body.render ++ 60 :: 47 :: (name ++ csp ++ 62 :: tail))))).length + 2 ≤ n := by
      simp [Markup.render] at hn ⊢
      omega
    obtain ⟨x, xs, hx⟩ := List.exists_cons_of_ne_nil h1.1
    have hx1 := h1.2.1 x (by simp [hx])
    have hx2 : x ≠ 33 := by have := h1.2.2; simpa [hx] using this
    obtain ⟨n, rfl⟩ : ∃ k, n = k + 2 := ⟨n - 2, by omega⟩
    have e := element_start h1 h2 h3 62 (body.render ++ 60 :: 47 :: (name ++ csp ++ 62 :: tail)) (.inl rfl)
    have e1 : (Markup.render (.elem name attrs sp body csp) ++ tail).drop 1 =
        name ++ (attrs.flatMap Attr.render ++ (sp ++ 62 :: (body.render ++ 60 :: 47 :: (name ++ csp ++ 62 :: tail)))) := by
      simp [Markup.render]
    rw [e1]
    obtain ⟨v', cs', hb1, hb2, hb3⟩ := parseContents_body body h5 name csp tail n [] [] h1.2.1 h4 (by
      simp [hx] at hlen ⊢
      omega)
    refine ⟨some (.mk .element name v' (attrs.map fun a => (a.name, textMeaning a.value)) cs'), ?_, ?_, ?_⟩
    · have e2 : ∀ t : Str, name ++ t = x :: (xs ++ t) := fun t => by simp [hx]
      rw [e2, parseNode_element _ _ _ hx1.2.2.2.2 hx2, ← e2, parseElement, e.1, e.2]
      have hne : name.isEmpty = false := by simp [hx]
      simp only [hne, Bool.false_eq_true, if_false, Res.bind_ok]
      rw [hb1]
      rfl
    · simp only [Option.mem_def, Option.some.injEq]
      rintro y rfl
      exact h1.1
    · rw [Option.toList_some, element_children name v' attrs cs' h1 h2, hb2, hb3]
      simp [Markup.meaning, getXmlChildren, cstr]
  | .comment s, hv, tail, n, hn => by
    cases hv with
    | comment h =>
    obtain ⟨n, rfl⟩ : ∃ k, n = k + 1 := ⟨n - 1, by simp [Markup.render] at hn; omega⟩
    have e := skipTo_end (by simp) tail h
    have e1 : (Markup.render (.comment s) ++ tail).drop 1 = 33 :: 45 :: 45 :: (s ++ b!"-->" ++ tail) := by simp [Markup.render]
    rw [e1]
    refine ⟨none, ?_, by simp, by simp [getXmlChildren, Markup.meaning]⟩
    simp only [parseNode]
    rw [if_pos (show b!"--".isPrefixOf (45 :: 45 :: (s ++ b!"-->" ++ tail)) = true from rfl)]
    show (do let r ← skipTo b!"-->" (s ++ b!"-->" ++ tail); Res.ok (none, r)) = _
    rw [e]
    rfl
  | .instruction s, hv, tail, n, hn => by
    cases hv with
    | instruction h =>
    obtain ⟨n, rfl⟩ : ∃ k, n = k + 1 := ⟨n - 1, by simp [Markup.render] at hn; omega⟩
    have e1 : (Markup.render (.instruction s) ++ tail).drop 1 = 63 :: (s ++ b!"?>" ++ tail) := by simp [Markup.render]
    rw [e1]
    refine ⟨none, ?_, by simp, by simp [getXmlChildren, Markup.meaning]⟩
    simp only [parseNode]
    have e : skipTo b!"?>" (if isDecl (s ++ b!"?>" ++ tail) = true then (s ++ b!"?>" ++ tail).drop 4 else s ++ b!"?>" ++ tail) = .ok tail := by
      split
      · rename_i hd
        obtain ⟨x, m, l, sp, s', rfl⟩ := isDecl_drop tail hd
        exact skipTo_end (by simp) tail (EndsAt.tail (EndsAt.tail (EndsAt.tail (EndsAt.tail h))))
      · exact skipTo_end (by simp) tail h
    rw [e]
    rfl
  | .doctype s, hv, tail, n, hn => by
    cases hv with
    | doctype h =>
    obtain ⟨n, rfl⟩ : ∃ k, n = k + 1 := ⟨n - 1, by simp [Markup.render] at hn; omega⟩
    have e1 : (Markup.render (.doctype s) ++ tail).drop 1 = 33 :: (b!"DOCTYPE " ++ (s ++ 62 :: tail)) := by simp [Markup.render]
    rw [e1]
    refine ⟨none, ?_, by simp, by simp [getXmlChildren, Markup.meaning]⟩
    have e : skipDoctype 0 (s ++ 62 :: tail) = .ok tail := by
      rw [skipDoctype_text h 0 _ (by simp)]; simp [skipDoctype]
    simp only [parseNode]
    rw [if_neg (by simp [List.isPrefixOf]), if_neg (by simp [List.isPrefixOf]), if_pos (by simp [isDoctype, List.isPrefixOf, isSpace])]
    show (do let r ← skipDoctype 0 (s ++ 62 :: tail); Res.ok (none, r)) = _
    rw [e]
    rfl

theorem parseContents_body : ∀ (b : Body), b.Valid → ∀ (name csp tail : Str) (n : Nat) (v : Str) (cs : List Node),
    (∀ c ∈ name, NameByte c) → Blanks csp → 2 * (b.render ++ 60 :: 47 :: (name ++ csp ++ 62 :: tail)).length + 1 ≤ n →
    ∃ v' cs', parseContents n v cs (b.render ++ 60 :: 47 :: (name ++ csp ++ 62 :: tail)) = .ok (v', cs', tail) ∧
      cstr v' = (if (cstr v).isEmpty then b.value else cstr v) ∧ getXmlChildren cs' = getXmlChildren cs ++ b.kids
  | .last t, hv, name, csp, tail, n, v, cs, hn, hc, hlen => by
    cases hv with
    | last ht =>
    simp only [Body.render] at hlen ⊢
    obtain ⟨n, rfl⟩ : ∃ k, n = k + 2 := ⟨n - 2, by simp at hlen; omega⟩
    by_cases hb : IsBlankText t
    · refine ⟨v, cs, parseContents_close _ _ _ _ name csp tail (blank_text hb _) hn hc, ?_, by simp [Body.kids]⟩
      simp only [Body.value, hb, if_true]
      split
      · rename_i h; simpa using h
      · rfl
    · obtain ⟨c, s, h1, h2⟩ := nonblank_text ht hb (60 :: 47 :: (name ++ csp ++ 62 :: tail))
      rw [parseContents_data _ _ _ _ s c h1 h2, expand_body ht, Res.bind_ok]
      refine ⟨_, _, parseContents_close _ _ _ (60 :: 47 :: (name ++ csp ++ 62 :: tail)) name csp tail (by simp [isSpace]) hn hc, ?_, ?_⟩
      · rw [cstr_value ht]; simp [Body.value, hb]
      · rw [data_children]; simp [Body.kids]
  | .cons t m r, hv, name, csp, tail, n, v, cs, hn, hc, hlen => by
    cases hv with
    | cons ht hm hr =>
    obtain ⟨x, xs, hx, hx1⟩ := markup_head hm
    simp only [Body.render, List.append_assoc] at hlen ⊢
    -- the step over the markup, with any value and children so far
    have step : ∀ (k : Nat) (v : Str) (cs : List Node) (s : Str),
        s.dropWhile isSpace = m.render ++ (r.render ++ 60 :: 47 :: (name ++ (csp ++ 62 :: tail))) →
        2 * (m.render ++ (r.render ++ 60 :: 47 :: (name ++ (csp ++ 62 :: tail)))).length + 1 ≤ k →
        ∃ v' cs', parseContents k v cs s = .ok (v', cs', tail) ∧
          cstr v' = (if (cstr v).isEmpty then r.value else cstr v) ∧ getXmlChildren cs' = getXmlChildren cs ++ (m.meaning ++ r.kids) := by
      intro k v cs s hs hk
      obtain ⟨k, rfl⟩ : ∃ j, k = j + 1 := ⟨k - 1, by omega⟩
      obtain ⟨o, ho1, ho2, ho3⟩ := parseNode_markup m hm (r.render ++ 60 :: 47 :: (name ++ (csp ++ 62 :: tail))) k (by omega)
      obtain ⟨v', cs', hb1, hb2, hb3⟩ := parseContents_body r hr name csp tail k v (cs ++ o.toList) hn hc (by
        simp [hx] at hk ⊢; omega)
      refine ⟨v', cs', ?_, hb2, by rw [hb3, getXmlChildren_append, ho3]; simp⟩
      rw [hx] at ho1 hs
      rw [parseContents_node k v cs s _ hs (by simp [hx1])]
      simp only [List.cons_append, List.drop_succ_cons, List.drop_zero] at ho1
      simp only [List.append_assoc] at hb1
      rw [show ((x :: xs).append (r.render ++ 60 :: 47 :: (name ++ (csp ++ 62 :: tail)))) = x :: (xs ++ (r.render ++ 60 :: 47 :: (name ++ (csp ++ 62 :: tail)))) from rfl, ho1]
      exact hb1
    by_cases hb : IsBlankText t
    · have hd : (renderText t ++ (m.render ++ (r.render ++ 60 :: 47 :: (name ++ (csp ++ 62 :: tail))))).dropWhile isSpace =
          m.render ++ (r.render ++ 60 :: 47 :: (name ++ (csp ++ 62 :: tail))) := by
        rw [hx]; exact blank_text hb _
      obtain ⟨v', cs', s1, s2, s3⟩ := step n v cs _ hd (by simp at hlen ⊢; omega)
      exact ⟨v', cs', s1, by simpa [Body.value, hb] using s2, by simpa [Body.kids] using s3⟩
    · obtain ⟨n, rfl⟩ : ∃ k, n = k + 1 := ⟨n - 1, by omega⟩
      have htl : 1 ≤ (renderText t).length := by
        cases ht0 : renderText t with
        | nil => exact absurd (by simp [IsBlankText, ht0]) hb
        | cons => simp
      obtain ⟨c, s, h1, h2⟩ := nonblank_text ht hb (m.render ++ (r.render ++ 60 :: 47 :: (name ++ (csp ++ 62 :: tail))))
      have hex : expand isTextChar (renderText t ++ (m.render ++ (r.render ++ 60 :: 47 :: (name ++ (csp ++ 62 :: tail))))) =
          .ok (textMeaning t, m.render ++ (r.render ++ 60 :: 47 :: (name ++ (csp ++ 62 :: tail)))) := by
        rw [hx]; exact expand_body ht _
      rw [parseContents_data _ _ _ _ s c h1 h2, hex]
      obtain ⟨v', cs', s1, s2, s3⟩ := step n (if (cstr v).isEmpty then textMeaning t else v)
        (cs ++ [.mk .data [] (textMeaning t) [] []]) (m.render ++ (r.render ++ 60 :: 47 :: (name ++ (csp ++ 62 :: tail))))
        (by rw [hx]; simp [isSpace]) (by simp at hlen ⊢; omega)
      refine ⟨v', cs', s1, ?_, ?_⟩
      · rw [s2, cstr_value ht]
        have := textMeaning_ne_nil hb
        simp only [Body.value, hb, if_false]
        cases hcv : (cstr v).isEmpty <;> simp [this, hcv]
      · rw [s3, data_children]; simp [Body.kids]
end

end Flut.Xml
