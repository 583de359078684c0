import Verif.Proofs.FileParts
import Verif.Props.CutXml
import Verif.Props.CutProp
import Verif.Props.CutIni

/-! # Property theorems: one file that is saved and loaded by several programs at the same time (C164) -/

namespace Flut

open Spec Spec.Xml SharedFile

/-! ## Without disturbance -/

/-- What a loader has read, if the file holds `c` all the time. -/
def ReadsAll (c : Str) (j : Nat) (s : SharedFile) : Prop :=
  s.content = some c ∧ (∀ g, s.loaders[j]? = some (.reading g) → g <+: c) ∧ (∀ g, s.loaders[j]? = some (.done g) → g = some c)

theorem readsAll_act {c : Str} {j : Nat} {s t : SharedFile} {a : PartAct} (h : s.act a = some t)
    (ha : (∃ k, a = .openLoad k) ∨ ∃ k n, a = .read k n) (hs : ReadsAll c j s) : ReadsAll c j t := by
  obtain ⟨h1, h2, h3⟩ := hs
  rcases ha with ⟨k, rfl⟩ | ⟨k, n, rfl⟩ <;> simp only [act] at h
  · split at h
    · rename_i hl
      injection h with h
      subst h
      have hlt := (List.getElem?_eq_some_iff.1 hl).1
      by_cases hk : k = j
      · subst hk
        refine ⟨h1, ?_, ?_⟩ <;> intro g e <;> simp [hlt, h1] at e
        subst e
        exact List.nil_prefix
      · refine ⟨h1, ?_, ?_⟩ <;> intro g e <;> simp only [List.getElem?_set, if_neg hk] at e
        · exact h2 g e
        · exact h3 g e
    · cases h
  · split at h
    · rename_i g c' hl hc
      rw [h1] at hc
      injection hc with hc
      subst hc
      split at h
      · rename_i hn
        injection h with h
        subst h
        have hlt := (List.getElem?_eq_some_iff.1 hl).1
        by_cases hk : k = j
        · subst hk
          obtain ⟨r, hr⟩ := h2 g hl
          subst hr
          refine ⟨h1, ?_, ?_⟩ <;> intro g' e <;> simp only [List.getElem?_set, if_true, hlt, List.drop_left] at e
          · split at e
            · simp at e
            · simp at e
              subst e
              exact (List.prefix_append_right_inj g).2 (List.take_prefix n r)
          · split at e
            · rename_i hr
              simp at e
              subst e
              rcases List.take_eq_nil_iff.1 hr with h0 | h0
              · omega
              · simp [h0]
            · simp at e
        · refine ⟨h1, ?_, ?_⟩ <;> intro g' e <;> simp only [List.getElem?_set, if_neg hk] at e
          · exact h2 g' e
          · exact h3 g' e
      · cases h
    · cases h

/-- C164. A file that nobody saves meanwhile is loaded completely, whatever the size of the parts; what is loaded is then what the functions of flut
make of its text. -/
theorem C164_undisturbed (c : Str) (s t : SharedFile) (j : Nat) (after : List PartAct) (u : Option Str) (hc : s.content = some c)
    (h : s.run (.openLoad j :: after) = some t) (ha : ∀ a ∈ after, (∃ k, a = .openLoad k) ∨ ∃ k n, a = .read k n)
    (hu : t.loaders[j]? = some (.done u)) : u = some c := by
  have key : ∀ (as : List PartAct) (s : SharedFile), (∀ a ∈ as, (∃ k, a = .openLoad k) ∨ ∃ k n, a = .read k n) → ReadsAll c j s →
      s.run as = some t → u = some c := by
    intro as
    induction as with
    | nil =>
      intro s _ hs h
      injection h with h
      subst h
      exact hs.2.2 u hu
    | cons a as ih =>
      intro s ha hs h
      rw [SharedFile.run] at h
      cases e : s.act a with
      | none => rw [e] at h; cases h
      | some m =>
        rw [e] at h
        exact ih m (fun x hx => ha x (List.mem_cons_of_mem _ hx)) (readsAll_act e (ha a (List.mem_cons_self ..)) hs) h
  rw [SharedFile.run] at h
  cases e : s.act (.openLoad j) with
  | none => rw [e] at h; cases h
  | some m =>
    rw [e] at h
    refine key after m ha ?_ h
    simp only [act] at e
    split at e
    · rename_i hl
      injection e with e
      subst e
      have hlt := (List.getElem?_eq_some_iff.1 hl).1
      refine ⟨hc, ?_, ?_⟩ <;> intro g e <;> simp [hlt, hc] at e
      subst e
      exact List.nil_prefix
    · cases e

/-- C164. What the functions that load make of the text that they have read. -/
theorem C164_loaders (fs : Fs) (p u : Str) (l : Loc) (h : fs.stat p = some (.file u)) (hl : fs.locate (cstr p) = some l)
    (hr : fs.readable l = true) :
    (fs.loadXml p none).1 = parseXml u ∧ (fs.loadProp p none).1 = parseProp u ∧ fs.loadIniFile p = loadIni u := by
  obtain ⟨h1, h2, h3⟩ := C52_present_partial fs p u l h hl hr none
  refine ⟨?_, by rw [h2 (by simp)], h3⟩
  unfold Fs.loadXml
  rw [h1]
  dsimp only
  rw [if_neg (by simp)]
  rcases Flut.Xml.parseXml_ends u with h | ⟨cs, h, _⟩ <;> rw [h]

/-! ## While the file is saved -/

/-- All calls save the same text. -/
def SameText (T : Str) (s : SharedFile) : Prop := ∀ x ∈ s.savers, x.text = T

theorem sameText_act {T : Str} (s t : SharedFile) (a : PartAct) (h : s.act a = some t) (hs : SameText T s) : SameText T t := by
  have e := act_texts h
  intro x hx
  have : x.text ∈ t.savers.map FileSaver.text := List.mem_map_of_mem hx
  rw [e] at this
  obtain ⟨y, hy, hy'⟩ := List.mem_map.1 this
  rw [← hy']
  exact hs y hy

/-- The only call that saves has written the beginning of its text. -/
def OneSaver (T : Str) (s : SharedFile) : Prop :=
  s.savers = [⟨T, none⟩] ∨ ∃ p, p ≤ T.length ∧ s.savers = [⟨T, some p⟩] ∧ s.content = some (T.take p)

theorem writeAt_take (T : Str) (p n : Nat) (h : p + n ≤ T.length) : writeAt (T.take p) p ((T.drop p).take n) = T.take (p + n) := by
  have hp : (T.take p).length = p := by simp; omega
  unfold writeAt
  have hd : (T.take p).drop (p + ((T.drop p).take n).length) = [] := List.drop_eq_nil_of_le (by rw [hp]; omega)
  rw [hd, hp, Nat.sub_self, List.replicate_zero, List.append_nil, List.append_nil, List.take_take, Nat.min_self, List.take_add]

theorem oneSaver_act {T : Str} (s t : SharedFile) (a : PartAct) (h : s.act a = some t) (hs : OneSaver T s) : OneSaver T t := by
  rcases a with i | ⟨i, n⟩ | j | ⟨j, n⟩ <;> simp only [act] at h
  · split at h
    · rename_i t' hx
      injection h with h
      subst h
      rcases hs with e | ⟨p, _, e, _⟩ <;> rw [e] at hx ⊢ <;> cases i <;> simp at hx
      subst hx
      exact .inr ⟨0, by omega, rfl, rfl⟩
    · cases h
  · split at h
    · rename_i t' p c hx hc
      split at h
      · rename_i hn
        injection h with h
        subst h
        rcases hs with e | ⟨q, _, e, e'⟩ <;> rw [e] at hx ⊢ <;> cases i <;> simp at hx
        obtain ⟨rfl, rfl⟩ := hx
        rw [e'] at hc
        injection hc with hc
        subst hc
        refine .inr ⟨q + n, hn.2, rfl, ?_⟩
        dsimp only
        rw [writeAt_take _ _ _ hn.2]
      · cases h
    · cases h
  · split at h
    · injection h with h
      subst h
      exact hs
    · cases h
  · split at h
    · split at h
      · injection h with h
        subst h
        exact hs
      · cases h
    · cases h

/-- C164. Several programs save the same text `T`, others load the file. A program begins to load it when it does not exist, or holds a beginning of that
text, or after one of the others has begun to save it. If it ends, it has read a beginning of the text, possibly followed by a character with code 0 and
anything else. If there is only one that saves, it has read a beginning of the text. -/
theorem C164_beginning (old : Option Str) (T : Str) (k m j : Nat) (before after : List PartAct) (t : SharedFile) (u : Str)
    (h : (start old (List.replicate k T) m).run (before ++ .openLoad j :: after) = some t)
    (hb : (∀ o, old = some o → o <+: T) ∨ ∃ i, .openSave i ∈ before) (hu : t.loaders[j]? = some (.done (some u))) :
    cstr u <+: T ∧ (k = 1 → u <+: T) := by
  constructor
  · refine atPlaces_cstr (run_got (P := SameText T) sameText_act ?_ ?_ ?_ h ?_ hu)
    · intro s hs x hx
      rw [hs x hx]
      exact fun i c hc => .inl hc
    · intro s _ i x p c _ _ k _ _
      exact .inr rfl
    · intro x hx
      simp [start] at hx
      rw [hx.2]
    · rcases hb with hb | hb
      · refine .inl fun o ho i c hc => .inl ?_
        exact atPlaces_prefix.2 (hb o ho) i c hc
      · exact .inr hb
  · rintro rfl
    refine atPlaces_prefix.1 (run_got (P := OneSaver T) oneSaver_act ?_ ?_ ?_ h ?_ hu)
    · intro s hs x hx
      rcases hs with e | ⟨p, _, e, _⟩ <;> rw [e, List.mem_singleton] at hx <;> subst hx <;> exact fun i c hc => hc
    · intro s hs i x p c hx hc k h1 h2
      exfalso
      rcases hs with e | ⟨q, hq, e, e'⟩ <;> rw [e] at hx <;> cases i <;> simp at hx
      rw [e'] at hc
      injection hc with hc
      subst hc
      simp at h1
      omega
    · exact .inl rfl
    · rcases hb with hb | hb
      · exact .inl fun o ho => atPlaces_prefix.2 (hb o ho)
      · exact .inr hb

theorem cstr_cstr (s : Str) : cstr (cstr s) = cstr s := Xml.cstr_eq_self (cstr_ne_zero s)

theorem parseDocN_more {n : Nat} : ∀ {m : Nat} {s : Str}, n ≤ m → Xml.parseDocN n s ≠ .diverges → Xml.parseDocN m s = Xml.parseDocN n s := by
  induction n with
  | zero => intro m s _ h; exact absurd rfl h
  | succ n ih =>
    intro m s hm h
    obtain ⟨m, rfl⟩ : ∃ k, m = k + 1 := ⟨m - 1, by omega⟩
    rw [Xml.parseDocN] at h ⊢
    rw [Xml.parseDocN]
    split at h
    · rfl
    · rename_i r _
      cases e : Xml.parseNode (2 * r.length + 2) r with
      | ok x =>
        obtain ⟨nd, q⟩ := x
        rw [e] at h
        show (Xml.parseDocN m q >>= _) = (Xml.parseDocN n q >>= _)
        rw [ih (by omega) ?_]
        intro hd
        apply h
        show (Xml.parseDocN n q >>= _) = _
        rw [hd]
        rfl
      | _ => rfl
    · rfl

theorem parseXml_cstr (u : Str) : parseXml (cstr u) = parseXml u := by
  have hl : (cstr u).length ≤ u.length := (List.takeWhile_prefix _).length_le
  have he : Xml.parseDoc u = Xml.parseDoc (cstr u) := by
    unfold Xml.parseDoc
    rw [cstr_cstr]
    apply parseDocN_more (by omega)
    intro h
    have := Xml.parseDoc_ends (cstr u)
    unfold Xml.parseDoc at this
    rw [cstr_cstr, h] at this
    rcases this with ⟨_, e⟩ | ⟨_, e⟩ <;> cases e
  unfold parseXml
  rw [he]

/-- C164. Loading a tree from an XML file while it is saved, possibly by several programs: it throws, or gives an empty tree, or the tree that is saved. -/
theorem C164_xml (old : Option Str) (n x : PN) (key : Str) (k m j : Nat) (before after : List PartAct) (t : SharedFile) (u : Str) (hv : n.value = [])
    (hc : n.children = [(key, x)]) (h1 : Name key) (h2 : Storable x)
    (h : (start old (List.replicate k (savedXml n)) m).run (before ++ .openLoad j :: after) = some t)
    (hb : (∀ o, old = some o → o <+: savedXml n) ∨ ∃ i, .openSave i ∈ before) (hu : t.loaders[j]? = some (.done (some u))) :
    parseXml u = .throws .stdException ∨ parseXml u = .ok PN.nil ∨ ∃ r, parseXml u = .ok r ∧ SameTree r n := by
  rw [← parseXml_cstr]
  rcases C108_saved_text n x key (cstr u) hv hc h1 h2 (C164_beginning old _ k m j before after t u h hb hu).1 with ⟨_, h⟩ | ⟨_, _, h⟩ | ⟨_, h⟩
  · exact .inr (.inl h)
  · exact .inl h
  · exact .inr (.inr h)

/-- C164. The same for a prop file: what is loaded is what is recovered from a beginning of the text (C109). -/
theorem C164_prop (old : Option Str) (n : PN) (k m j : Nat) (before after : List PartAct) (t : SharedFile) (u : Str)
    (hk : ∀ kn ∈ n.children, PrintableKey kn.1) (hn : ∀ kn ∈ n.children, PrintableTree kn.2)
    (h : (start old (List.replicate k (savedProp true n)) m).run (before ++ .openLoad j :: after) = some t)
    (hb : (∀ o, old = some o → o <+: savedProp true n) ∨ ∃ i, .openSave i ∈ before) (hu : t.loaders[j]? = some (.done (some u))) :
    ∃ written, written <+: savedProp true n ∧ parseProp u = parseProp written ∧
      ((parseProp u = .diverges ∧ written.getLast? = some 92) ∨ (parseProp u = .throws .flutError ∧ written.getLast? = some 34) ∨
       ∃ cs, parseProp u = .ok (.mk false [] cs) ∧ CutKids 0 written cs n.children) := by
  have hp := (C164_beginning old _ k m j before after t u h hb hu).1
  have e : parseProp u = parseProp (cstr u) := by
    unfold parseProp CharStream.ofCStr
    rw [cstr_cstr]
  exact ⟨cstr u, hp, e, by rw [e]; exact C109_saved_text n (cstr u) hk hn hp⟩

/-- C164. The same for an ini file that one program saves (C110). -/
theorem C164_ini (old : Option Str) (n : PN) (main groups : List (Str × PN)) (m j : Nat) (before after : List PartAct) (t : SharedFile) (u : Str)
    (hd : IniDoc n main groups) (hp : PlainIni main groups) (h : (start old [saveIni n] m).run (before ++ .openLoad j :: after) = some t)
    (hb : (∀ o, old = some o → o <+: saveIni n) ∨ ∃ i, .openSave i ∈ before) (hu : t.loaders[j]? = some (.done (some u))) :
    u <+: saveIni n ∧ ((loadIni u = .throws .flutError ∧ CutInName u) ∨
      ∃ r, loadIni u = .ok r ∧ r.value = [] ∧ CutIni u (kids r) main groups) := by
  have hw := (C164_beginning old _ 1 m j before after t u h hb hu).2 rfl
  exact ⟨hw, C110_saved_text n main groups hd hp u hw⟩

/-! ## When all have saved -/

/-- The call that has begun last has written the beginning of its text, which nobody has changed. -/
def LastSaver (T : Str) (s : SharedFile) : Prop :=
  SameText T s ∧ ((∀ x ∈ s.savers, x.pos = none) ∨ ∃ (i p : Nat) (c : Str), s.savers[i]? = some ⟨T, some p⟩ ∧ s.content = some c ∧ p ≤ c.length ∧
    c.length ≤ T.length ∧ ∀ k < p, c[k]? = T[k]?)

theorem writeAt_length (c : Str) (p : Nat) (part : Str) : (writeAt c p part).length = max c.length (p + part.length) := by
  unfold writeAt
  simp
  omega

theorem lastSaver_act {T : Str} (s t : SharedFile) (a : PartAct) (h : s.act a = some t) (hs : LastSaver T s) : LastSaver T t := by
  refine ⟨sameText_act s t a h hs.1, ?_⟩
  obtain ⟨h0, hs⟩ := hs
  rcases a with i | ⟨i, n⟩ | j | ⟨j, n⟩ <;> simp only [act] at h
  · split at h
    · rename_i t' hx
      injection h with h
      subst h
      have := h0 _ (List.mem_of_getElem? hx)
      simp only at this
      subst this
      have hlt := (List.getElem?_eq_some_iff.1 hx).1
      exact .inr ⟨i, 0, [], by simp [hlt], rfl, by simp, by simp, by omega⟩
    · cases h
  · split at h
    · rename_i t' q c hx hc
      split at h
      · rename_i hn
        injection h with h
        subst h
        have ht := h0 _ (List.mem_of_getElem? hx)
        simp only at ht
        subst ht
        have hlt := (List.getElem?_eq_some_iff.1 hx).1
        have hpart : ((t'.drop q).take n).length = n := by simp; omega
        rcases hs with hs | ⟨i', p, c', e1, e2, e3, e4, e5⟩
        · exact absurd (hs _ (List.mem_of_getElem? hx)) (by simp)
        rw [e2] at hc
        injection hc with hc
        subst hc
        have hlen := writeAt_length c' q ((t'.drop q).take n)
        rw [hpart] at hlen
        have hget : ∀ k < p, (writeAt c' q ((t'.drop q).take n))[k]? = t'[k]? := by
          intro k hk
          rw [writeAt_get, hpart]
          split
          · rw [if_pos (by omega), e5 k hk]
          · split
            · rw [List.getElem?_take_of_lt (by omega), List.getElem?_drop, show q + (k - q) = k by omega]
            · exact e5 k hk
        by_cases hi : i = i'
        · subst hi
          rw [hx] at e1
          simp only [Option.some.injEq, FileSaver.mk.injEq, true_and] at e1
          subst e1
          refine .inr ⟨i, q + n, _, by simp [hlt], rfl, by omega, by omega, ?_⟩
          intro k hk
          by_cases hk' : k < q
          · exact hget k hk'
          · rw [writeAt_get, hpart, if_neg hk', if_pos hk, List.getElem?_take_of_lt (by omega), List.getElem?_drop, show q + (k - q) = k by omega]
        · refine .inr ⟨i', p, _, ?_, rfl, by omega, by omega, hget⟩
          simp only [List.getElem?_set, if_neg hi]
          exact e1
      · cases h
    · cases h
  · split at h
    · injection h with h
      subst h
      exact hs
    · cases h
  · split at h
    · split at h
      · injection h with h
        subst h
        exact hs
      · cases h
    · cases h

/-- C164. When several programs have saved the same text, in whatever order their parts were written, the file holds this text. -/
theorem C164_saved (old : Option Str) (T : Str) (k m : Nat) (as : List PartAct) (t : SharedFile) (hk : 0 < k)
    (h : (start old (List.replicate k T) m).run as = some t) (hf : ∀ x ∈ t.savers, x.finished) : t.content = some T := by
  have hl : LastSaver T t := run_inv lastSaver_act h ⟨fun x hx => by simp [start] at hx; rw [hx.2], .inl fun x hx => by simp [start] at hx; rw [hx.2]⟩
  have hlen : t.savers.length = k := by
    have : ∀ s t a, SharedFile.act s a = some t → s.savers.length = k → t.savers.length = k := by
      intro s t a ha hs
      have := congrArg List.length (act_texts ha)
      simp only [List.length_map] at this
      omega
    exact run_inv (P := fun s => s.savers.length = k) this h (by simp [start])
  obtain ⟨hs, hl⟩ := hl
  rcases hl with hl | ⟨i, p, c, e1, e2, e3, e4, e5⟩
  · obtain ⟨x, hx⟩ := List.exists_mem_of_length_pos (l := t.savers) (by omega)
    have h1 := hl x hx
    rw [hf x hx] at h1
    cases h1
  · have := hf _ (List.mem_of_getElem? e1)
    simp only [FileSaver.finished, Option.some.injEq] at this
    subst this
    rw [e2, Option.some.injEq]
    apply List.ext_getElem?
    intro i
    by_cases hi : i < T.length
    · exact e5 i hi
    · rw [List.getElem?_eq_none (by omega), List.getElem?_eq_none (by omega)]

/-- C164. Whatever programs save and load: each character of the file, and each character that one of them has read, is at its place in the file as it was
before, or in one of the texts that are saved, or has code 0. -/
theorem C164_places (old : Option Str) (texts : List Str) (m : Nat) (as : List PartAct) (t : SharedFile) (h : (start old texts m).run as = some t)
    (u : Str) (hu : t.content = some u ∨ ∃ j : Nat, t.loaders[j]? = some (.done (some u))) (i : Nat) (c : Byte) (hc : u[i]? = some c) :
    (∃ o, old = some o ∧ o[i]? = some c) ∨ c = 0 ∨ ∃ T ∈ texts, T[i]? = some c := by
  let may : Nat → Byte → Prop := fun i c => (∃ o, old = some o ∧ o[i]? = some c) ∨ c = 0 ∨ ∃ T ∈ texts, T[i]? = some c
  have key : (t.savers.map FileSaver.text = texts ∧ t.Fits may ∧ ∀ j, t.GotFits may j) := by
    refine run_inv (P := fun s => s.savers.map FileSaver.text = texts ∧ s.Fits may ∧ ∀ j, s.GotFits may j) ?_ h ?_
    · rintro s t a ha ⟨h1, h2, h3⟩
      refine ⟨by rw [act_texts ha, h1], act_fits ha ?_ ?_ (.inl h2), fun j => act_got ha h2 (h3 j)⟩
      · intro x hx i c hc
        exact .inr (.inr ⟨x.text, by rw [← h1]; exact List.mem_map_of_mem hx, hc⟩)
      · intro i x p c _ _ k _ _
        exact .inr (.inl rfl)
    · refine ⟨?_, fun o ho i c hc => .inl ⟨o, ho, hc⟩, ?_⟩
      · simp only [start, List.map_map]
        exact List.map_id _
      · intro j g hg
        simp only [start, List.getElem?_replicate] at hg
        split at hg <;> simp at hg
  rcases hu with hu | ⟨j, hu⟩
  · exact key.2.1 u hu i c hc
  · exact key.2.2 j u (.inr hu) i c hc

/-! ## Examples -/

/-- A tree with one value. -/
def partsTree (v : Str) : PN := .mk false [] [(b!"a", .mk false v [])]

/-- A file that is saved in two parts, and loaded in between. -/
def partsRun : List PartAct := [.openSave 0, .write 0 5, .openLoad 0, .read 0 3, .read 0 8, .read 0 8, .write 0 6, .openLoad 1, .read 1 100, .read 1 1]

example : (((start none [savedXml (partsTree b!"22")] 2).run partsRun).map fun t => t.content) = some (some b!"<a>22</a>\n\n") ∧
    (((start none [savedXml (partsTree b!"22")] 2).run partsRun).map fun t => t.loaders) = some [.done (some b!"<a>22"), .done (some b!"<a>22</a>\n\n")] ∧
    parseXml b!"<a>22" = .throws .stdException ∧ parseXml b!"<a>22</a>\n\n" = .ok (partsTree b!"22") ∧
    Name b!"a" ∧ Storable (.mk false b!"22" []) := by
  refine ⟨rfl, rfl, rfl, rfl, by decide, ?_⟩
  exact .leaf (v := b!"22") (by decide) (fun _ => ⟨50, by decide, by decide⟩)

/-- Two programs that save the same text: a loader can read characters with code 0, but in the end the text is there. -/
example : (((start none [b!"a = 1\n", b!"a = 1\n"] 1).run [.openSave 0, .write 0 4, .openSave 1, .write 0 2, .openLoad 0, .read 0 9, .read 0 9, .write 1 6]).map
      fun t => (t.content, t.savers.map FileSaver.pos)) = some (some b!"a = 1\n", [some 6, some 6]) ∧
    (((start none [b!"a = 1\n", b!"a = 1\n"] 1).run [.openSave 0, .write 0 4, .openSave 1, .write 0 2, .openLoad 0, .read 0 9, .read 0 9, .write 1 6]).map
      fun t => t.loaders) = some [.done (some [0, 0, 0, 0, 49, 10])] := ⟨rfl, rfl⟩

/-- C164. A file that is saved again, with another tree: a program that had begun to load it before can get a third tree, without an error. -/
theorem C164_old_or_new_refuted : ∃ (as : List PartAct) (t : SharedFile) (u : Str),
    (start (some (savedXml (partsTree b!"1"))) [savedXml (partsTree b!"22")] 1).run as = some t ∧ t.loaders[0]? = some (.done (some u)) ∧
    parseXml u = .ok (partsTree b!"12") := by
  exact ⟨[.openLoad 0, .read 0 4, .openSave 0, .write 0 11, .read 0 20, .read 0 1], _, b!"<a>12</a>\n\n", rfl, rfl, rfl⟩

/-- C164. A file that is saved again, with the same tree, cannot be loaded at any time. -/
theorem C164_again_refuted : ∃ (as : List PartAct) (t : SharedFile) (u : Str),
    (start (some (savedXml (partsTree b!"1"))) [savedXml (partsTree b!"1")] 1).run as = some t ∧ t.loaders[0]? = some (.done (some u)) ∧
    parseXml u = .throws .stdException := by
  exact ⟨[.openLoad 0, .read 0 4, .openSave 0, .read 0 20], _, b!"<a>1", rfl, rfl, rfl⟩

/-- C164. Two programs that save different trees in one file: what is loaded when both are ready is neither of them. -/
theorem C164_savers_refuted : ∃ (x y z : PN) (as : List PartAct) (t : SharedFile) (u : Str),
    (start none [savedProp true x, savedProp true y] 0).run as = some t ∧ (∀ s ∈ t.savers, s.finished) ∧ t.content = some u ∧
    parseProp u = .ok z ∧ ¬ SameTree z x ∧ ¬ SameTree z y := by
  refine ⟨partsTree b!"1", .mk false [] [(b!"b", .mk false b!"2" []), (b!"c", .mk false b!"3" [])],
    .mk false [] [(b!"a", .mk false b!"1" []), (b!"c", .mk false b!"3" [])], [.openSave 0, .openSave 1, .write 1 12, .write 0 6], ⟨_, [⟨_, some 6⟩, ⟨_, some 12⟩], []⟩, b!"a = 1\nc = 3\n",
    rfl, ?_, rfl, rfl, ?_, ?_⟩
  · intro s hs
    simp only [List.mem_cons, List.not_mem_nil, or_false] at hs
    rcases hs with rfl | rfl <;> rfl
  · rintro ⟨h, _⟩
    revert h; decide
  · rintro ⟨h, _⟩
    revert h; decide

/-- C164. Nor does such a file hold only what was saved. -/
theorem C164_holes_refuted : ∃ (x y : PN) (as : List PartAct) (t : SharedFile) (u : Str),
    (start none [savedProp true x, savedProp true y] 0).run as = some t ∧ (∀ s ∈ t.savers, s.finished) ∧ t.content = some u ∧
    0 ∈ u ∧ 0 ∉ savedProp true x ∧ 0 ∉ savedProp true y := by
  refine ⟨partsTree b!"1", .mk false [] [(b!"b", .mk false b!"2" []), (b!"c", .mk false b!"3" [])],
    [.openSave 1, .write 1 8, .openSave 0, .write 0 6, .write 1 4], ⟨_, [⟨_, some 6⟩, ⟨_, some 12⟩], []⟩, b!"a = 1\n" ++ [0, 0] ++ b!"= 3\n", rfl, ?_, rfl, by decide, by decide +kernel, by decide +kernel⟩
  intro s hs
  simp only [List.mem_cons, List.not_mem_nil, or_false] at hs
  rcases hs with rfl | rfl <;> rfl

end Flut
