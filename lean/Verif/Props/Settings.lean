import Verif.Proofs.Settings
import Verif.Props.Text
import Verif.Props.Real
import Verif.Props.FileSystem
import Verif.Props.Xml
import Verif.Props.Basics

/-!
# Settings that are written, saved, loaded and read (C117)
-/

namespace Flut

open Spec PN Fs

/-! ## C117 -/

/-- The text under which a value is kept, by the `string_cast` of its type (flut/system/string_cast.hpp:9-52). -/
def settingStr : Setting → Str
  | .int x => intTo x
  | .size n => ulongTo n
  | .flag b => boolTo b
  | .real _ x => realTo x
  | .text s => s

/-- A program that calls `set_delimited( key, value, delim )` for each setting, /repo/flut/prop_node.hpp:109-113. -/
def writeSettings (d : Byte) : List (Str × Setting) → PN → Res PN
  | [], t => .ok t
  | (key, s) :: r, t => do
    let t ← setDelimited d key (toStrNode settingStr s) t
    writeSettings d r t

/-- `get_delimited< T >( key, delim )` with the type of the setting gives its value; for reals, one close to it. -/
def ReadsAs (d : Byte) (key : Str) (r : PN) : Setting → Prop
  | .int x => ∃ r', getDelimited (castStr intFrom) d key r = .ok (x, r')
  | .size n => ∃ r', getDelimited (castStr (ulongFrom 64)) d key r = .ok (n, r')
  | .flag b => ∃ r', getDelimited (castStr boolFrom) d key r = .ok (b, r')
  | .real f x => ∃ y r', getDelimited (castStr (realFrom f)) d key r = .ok (y, r') ∧ Close x y
  | .text s => ∃ r', getDelimited (castStr .ok) d key r = .ok (s, r')

/-- All settings are there with the values written last, and nothing is found under a key that is neither a setting nor a group. -/
structure HasSettings (d : Byte) (ws : List (Str × Setting)) (r : PN) : Prop where
  found : ∀ key s, lastSetting d (segments d key) ws = some s → ReadsAs d key r s
  missing : ∀ {α : Type} (cast : PN → Res α) key, (∀ w ∈ ws, ¬ segments d key <+: segments d w.1) →
    getDelimited cast d key r = .throws .flutError

/-- A character of a number: a digit, a sign, a point or a small letter. -/
def NumberByte (c : Byte) : Prop := (45 ≤ c.toNat ∧ c.toNat ≤ 57) ∨ (97 ≤ c.toNat ∧ c.toNat ≤ 122)

theorem digits_number {s : Str} (h : IsDigits s) : ∀ c ∈ s, NumberByte c := by
  intro c hc
  have := h.2 c hc
  left; omega

theorem settingStr_number (s : Setting) (hs : s.Fits) (ht : ∀ u, s ≠ .text u) : settingStr s ≠ [] ∧ ∀ c ∈ settingStr s, NumberByte c := by
  cases s with
  | int x =>
    have h := intStr_numeral x
    show intStr x ≠ [] ∧ ∀ c ∈ intStr x, NumberByte c
    have hd := (natStr_digits x.natAbs).1
    unfold intStr
    split
    · refine ⟨by simp, ?_⟩
      intro c hc
      simp only [List.mem_cons] at hc
      rcases hc with rfl | hc
      · left; decide
      · exact digits_number hd c hc
    · exact ⟨hd.1, digits_number hd⟩
  | size n => exact ⟨(natStr_digits n).1.1, digits_number (natStr_digits n).1⟩
  | flag b => cases b <;> refine ⟨by decide, ?_⟩ <;> intro c hc <;> simp [settingStr, boolTo] at hc <;> rw [hc] <;> left <;> decide
  | real f x =>
    cases x with
    | fin neg m =>
      obtain ⟨a, b, q, h1, h2, h3, -⟩ := C82_text neg m hs.2.1
      show realTo _ ≠ [] ∧ ∀ c ∈ realTo _, NumberByte c
      rw [h1]
      refine ⟨by simp, ?_⟩
      intro c hc
      simp only [List.mem_append, List.mem_cons] at hc
      rcases hc with hc | hc | rfl | hc
      · split at hc
        · simp at hc; subst hc; left; decide
        · simp at hc
      · exact digits_number h2 c hc
      · left; decide
      · exact digits_number h3 c hc
    | inf neg =>
      show realTo _ ≠ [] ∧ ∀ c ∈ realTo _, NumberByte c
      rw [(C82_special f neg).1]
      cases neg <;> refine ⟨by decide, ?_⟩ <;> intro c hc <;> simp at hc <;> unfold NumberByte <;> rcases hc with rfl | rfl | rfl | rfl <;> decide
    | nan neg =>
      show realTo _ ≠ [] ∧ ∀ c ∈ realTo _, NumberByte c
      rw [(C82_special f neg).2.1]
      cases neg <;> refine ⟨by decide, ?_⟩ <;> intro c hc <;> simp at hc <;> unfold NumberByte <;> rcases hc with rfl | rfl | rfl | rfl <;> decide
  | text u => exact absurd rfl (ht u)

theorem number_not_space {c : Byte} (h : NumberByte c) : ¬ Spec.IsSpace c := by
  rintro (rfl | h1)
  · rcases h with h | h <;> revert h <;> decide
  · rcases h with h | h <;> omega

theorem number_trimmed {s : Str} (h : ∀ c ∈ s, NumberByte c) : Trimmed s :=
  ⟨fun c hc => number_not_space (h c (List.mem_of_mem_head? hc)), fun c hc => number_not_space (h c (List.mem_of_mem_getLast? hc))⟩

theorem number_ne {c k : Byte} (h : NumberByte c) (hk : k.toNat < 45 ∨ (57 < k.toNat ∧ k.toNat < 97) ∨ 122 < k.toNat) : c ≠ k := by
  rintro rfl
  rcases h with h | h <;> omega

theorem number_printable {s : Str} (h : ∀ c ∈ s, NumberByte c) : Printable s := by
  refine ⟨?_, number_trimmed h, .inr ?_⟩
  · intro c hc
    rcases h c hc with h | h <;> omega
  · intro c hc hs
    have hn := h c hc
    rcases hs with hs | hs | hs | hs | hs | hs
    · exact number_ne hn (by decide) hs
    · exact number_ne hn (by decide) hs
    · exact number_ne hn (by decide) hs
    · exact number_ne hn (by decide) hs
    · exact number_ne hn (by decide) hs
    · exact number_ne hn (by decide) hs

theorem lastSetting_snoc (d : Byte) (p : List Str) (ws : List (Str × Setting)) (w : Str × Setting) :
    lastSetting d p (ws ++ [w]) = if p = segments d w.1 then some w.2 else lastSetting d p ws := by
  induction ws with
  | nil => simp [lastSetting, eq_comm]
  | cons x ws ih =>
    obtain ⟨k, s⟩ := x
    rw [List.cons_append, lastSetting, ih]
    by_cases h : p = segments d w.1
    · simp [h]
    · simp only [if_neg h]
      rw [lastSetting]

theorem lastSetting_mem {d : Byte} {p : List Str} {ws : List (Str × Setting)} {s : Setting} (h : lastSetting d p ws = some s) :
    ∃ w ∈ ws, segments d w.1 = p ∧ w.2 = s := by
  induction ws with
  | nil => cases h
  | cons x ws ih =>
    obtain ⟨k, v⟩ := x
    rw [lastSetting] at h
    cases hl : lastSetting d p ws with
    | some y =>
      rw [hl] at h
      cases h
      obtain ⟨w, h1, h2⟩ := ih hl
      exact ⟨w, by simp [h1], h2⟩
    | none =>
      rw [hl] at h
      dsimp only at h
      split at h
      · rename_i hk
        cases h
        exact ⟨(k, s), by simp, hk, rfl⟩
      · cases h

/-- Where a list of settings leaves the tree. -/
theorem writeSettings_spec (d : Byte) (ws done : List (Str × Setting)) (t : PN) (hg : NoGroupIsValue d (done ++ ws))
    (h : Written (done.map fun w => segments d w.1) (fun p => (lastSetting d p done).map settingStr) t) :
    ∃ t', writeSettings d ws t = .ok t' ∧
      Written ((done ++ ws).map fun w => segments d w.1) (fun p => (lastSetting d p (done ++ ws)).map settingStr) t' := by
  induction ws generalizing done t with
  | nil => exact ⟨t, rfl, by simpa using h⟩
  | cons w ws ih =>
    obtain ⟨key, s⟩ := w
    obtain ⟨t1, h1, h2⟩ := written_set h d key (settingStr s) (by
      intro p hp hc
      obtain ⟨w, hw, rfl⟩ := List.mem_map.1 hp
      rcases hc with hc | hc
      · exact hg w (by simp [hw]) (key, s) (by simp) hc
      · exact (hg (key, s) (by simp) w (by simp [hw]) hc).symm)
    obtain ⟨t', h3, h4⟩ := ih (done ++ [(key, s)]) t1 (by simpa using hg) (by
      simp only [List.map_append, List.map_cons, List.map_nil]
      have e : (fun p => (lastSetting d p (done ++ [(key, s)])).map settingStr) =
          fun p => if p = segments d key then some (settingStr s) else (lastSetting d p done).map settingStr := by
        funext p
        rw [lastSetting_snoc]
        split <;> rfl
      rw [e]
      exact h2)
    refine ⟨t', ?_, by simpa using h4⟩
    rw [writeSettings, toStrNode, h1, Res.bind_ok, h3]

theorem writeSettings_nil (d : Byte) (ws : List (Str × Setting)) (hg : NoGroupIsValue d ws) :
    ∃ t, writeSettings d ws nil = .ok t ∧
      Written (ws.map fun w => segments d w.1) (fun p => (lastSetting d p ws).map settingStr) t := by
  simpa using writeSettings_spec d ws [] nil (by simpa using hg) (by simpa [lastSetting] using written_nil)

theorem setting_reads {d : Byte} {key : Str} {r : PN} {s : Setting} (hs : s.Fits)
    (h : (nodeAt (segments d key) r).map clear = some (leaf (settingStr s))) : ReadsAs d key r s := by
  have get : ∀ {α : Type} (f : Str → Res α) (x : α), f (settingStr s) = .ok x →
      ∃ r', getDelimited (castStr f) d key r = .ok (x, r') := by
    intro α f x hx
    rcases C21_get_delimited (castStr f) d key r with ⟨h1, -⟩ | ⟨c, r', h1, -, h3⟩
    · rw [h1] at h; cases h
    · rw [h1] at h
      simp only [Option.map_some, Option.some.injEq] at h
      refine ⟨r', ?_⟩
      have e : castStr f (leaf (settingStr s)) = .ok x := hx
      rw [h3, h, e]
      rfl
  cases s with
  | int x => exact get _ _ (C49_int x hs)
  | size n => exact get _ _ (C49_ulong 64 n hs)
  | flag b => exact get _ _ (C49_bool b)
  | text u => exact get .ok u rfl
  | real f x =>
    cases x with
    | fin neg m =>
      obtain ⟨v, y, -, -, -, h4, h5⟩ := C82_round_trip_partial f hs.1 neg m hs.2
      obtain ⟨r', hr⟩ := get _ _ h5
      exact ⟨_, r', hr, .fin h4⟩
    | inf neg =>
      obtain ⟨r', hr⟩ := get _ _ (C82_special f neg).2.2.1
      exact ⟨_, r', hr, .inf⟩
    | nan neg =>
      obtain ⟨r', hr⟩ := get _ _ (C82_special f neg).2.2.2
      exact ⟨_, r', hr, .nan⟩

theorem written_settings {d : Byte} {ws : List (Str × Setting)} {t r : PN} (hf : ∀ w ∈ ws, w.2.Fits)
    (h : Written (ws.map fun w => segments d w.1) (fun p => (lastSetting d p ws).map settingStr) t) (hr : SameTree r t) :
    HasSettings d ws r := by
  have same : ∀ p, (nodeAt p r).map clear = (nodeAt p t).map clear := by
    intro p
    rw [← nodeAt_clear, ← nodeAt_clear, (sameTree_iff r t).1 hr]
  constructor
  · intro key s hl
    obtain ⟨w, hw, hk, rfl⟩ := lastSetting_mem hl
    refine setting_reads (hf w hw) ?_
    obtain ⟨u, u1, u2⟩ := h.value (segments d key) (List.mem_map.2 ⟨w, hw, hk⟩)
    rw [hl] at u1
    simp only [Option.map_some, Option.some.injEq] at u1
    rw [same, u2, u1]
  · intro α cast key hm
    rcases C21_get_delimited cast d key r with ⟨-, h2⟩ | ⟨c, r', h1, -⟩
    · exact h2
    · exfalso
      have := same (segments d key)
      rw [h1] at this
      cases hn : nodeAt (segments d key) t with
      | none => rw [hn] at this; cases this
      | some n =>
        obtain ⟨p, hp, hpre⟩ := h.on_path _ _ (segments_ne_nil d key) hn
        obtain ⟨w, hw, rfl⟩ := List.mem_map.1 hp
        exact hm w hw hpre

/-- In memory: settings written under delimited keys are read back, whatever the order and however often each is written. -/
theorem C117_memory (d : Byte) (ws : List (Str × Setting)) (hf : ∀ w ∈ ws, w.2.Fits) (hg : NoGroupIsValue d ws) :
    ∃ t, writeSettings d ws nil = .ok t ∧ HasSettings d ws t := by
  obtain ⟨t, h1, h2⟩ := writeSettings_nil d ws hg
  exact ⟨t, h1, written_settings hf h2 ((sameTree_iff t t).2 rfl)⟩

/-- If a group is written as a value, the settings in the group are gone. -/
theorem C117_group_refuted {α : Type} (cast : PN → Res α) (d : Byte) (key key' : Str) (s : Setting) (t : PN)
    (h : segments d key <+: segments d key') (hne : segments d key ≠ segments d key') :
    ∃ t', setDelimited d key (toStrNode settingStr s) t = .ok t' ∧ getDelimited cast d key' t' = .throws .flutError := by
  obtain ⟨t', h1, -, h3, -⟩ := C21_set_delimited d key (toStrNode settingStr s) t
  refine ⟨t', h1, ?_⟩
  rw [sameOpt_iff] at h3
  rcases C21_get_delimited cast d key' t' with ⟨-, h2⟩ | ⟨c, r', g1, -⟩
  · exact h2
  · exfalso
    obtain ⟨q, hq⟩ := h
    rw [← hq, nodeAt_append] at g1
    cases hn : nodeAt (segments d key) t' with
    | none => rw [hn] at g1; cases g1
    | some n =>
      rw [hn] at g1 h3
      simp only [Option.map_some, Option.some.injEq] at h3
      have hk : kids n = [] := (kids_clear n).1 (by rw [h3]; rfl)
      rw [Option.bind_some, nodeAt_leaf hk (by rintro rfl; simp at hq; exact hne hq)] at g1
      cases g1

theorem setting_texts {d : Byte} {ws : List (Str × Setting)} {V : Str → Prop} (hf : ∀ w ∈ ws, w.2.Fits)
    (hn : ∀ s : Str, s ≠ [] → (∀ c ∈ s, NumberByte c) → V s) (ht : ∀ w ∈ ws, ∀ u, w.2 = .text u → V u) (p : List Str) (s : Str)
    (h : (lastSetting d p ws).map settingStr = some s) : V s := by
  cases hl : lastSetting d p ws with
  | none => rw [hl] at h; cases h
  | some x =>
    rw [hl] at h
    simp only [Option.map_some, Option.some.injEq] at h
    obtain ⟨w, hw, -, rfl⟩ := lastSetting_mem hl
    by_cases hx : ∃ u, w.2 = .text u
    · obtain ⟨u, hu⟩ := hx
      rw [hu] at h
      have h : u = s := h
      exact h ▸ ht w hw u hu
    · obtain ⟨h1, h2⟩ := settingStr_number w.2 (hf w hw) (fun u hu => hx ⟨u, hu⟩)
      rw [h] at h1 h2
      exact hn s h1 h2

theorem shaped_printable {n : PN} (h : Shaped PrintableKey Printable n) : PrintableTree n := by
  induction h with
  | leaf h => exact .leaf h
  | node h1 h2 _ ih => exact .node h1 h2 ih

/-- Through a prop file: the settings are written, saved with `save_prop`, loaded with `load_prop` and read. -/
theorem C117_prop (fs : Fs) (p : Str) (d : Byte) (ws : List (Str × Setting)) (hf : ∀ w ∈ ws, w.2.Fits) (hg : NoGroupIsValue d ws)
    (hk : ∀ w ∈ ws, ∀ k ∈ segments d w.1, PrintableKey k) (ht : ∀ w ∈ ws, ∀ u, w.2 = .text u → Printable u)
    (l : Loc) (fs1 : Fs) (hw : fs.openWrite p = some (l, fs1)) (hr : fs.readable l = true) :
    ∃ t r, writeSettings d ws nil = .ok t ∧ (fs.saveProp t p true).1 = true ∧
      (fs.saveProp t p true).2.loadProp p none = (.ok r, none) ∧ HasSettings d ws r := by
  obtain ⟨t, h1, h2⟩ := writeSettings_nil d ws hg
  have hK : ∀ w ∈ ws.map (fun w => segments d w.1), ∀ k ∈ w, PrintableKey k := by
    intro w hw
    obtain ⟨x, hx, rfl⟩ := List.mem_map.1 hw
    exact hk x hx
  have kid : ∀ kn ∈ kids t, PrintableKey kn.1 ∧ PrintableTree kn.2 := by
    rintro ⟨k, c⟩ hkc
    obtain ⟨h3, h4⟩ := written_kids h2 hK (fun w _ s hs => setting_texts hf (fun s _ h => number_printable h) ht w s hs) hkc
    exact ⟨h3, shaped_printable h4⟩
  have hs : (fs.saveProp t p true).1 = true := by unfold saveProp; rw [hw]
  obtain ⟨r, r1, r2⟩ := C52_save_load fs p t l (openWrite_some hw).1 hs hr h2.root (fun kn h => (kid kn h).1) (fun kn h => (kid kn h).2)
  exact ⟨t, r, h1, hs, r1, written_settings hf h2 r2⟩

theorem shaped_storable {n : PN} (h : Shaped Xml.Name (fun v => (∀ c ∈ v, c ≠ 0) ∧ (v ≠ [] → ∃ c ∈ v, ¬ Xml.Blank c)) n) : Xml.Storable n := by
  induction h with
  | leaf h => exact .leaf h.1 h.2
  | node h1 h2 _ ih => exact .group h2 ih

/-- Through an XML file: the same, if all settings are in one group, since an XML file has one root. -/
theorem C117_xml (fs : Fs) (p : Str) (d : Byte) (ws : List (Str × Setting)) (hf : ∀ w ∈ ws, w.2.Fits) (hg : NoGroupIsValue d ws)
    (root : Str) (hne : ws ≠ []) (hroot : ∀ w ∈ ws, (segments d w.1).head? = some root)
    (hk : ∀ w ∈ ws, ∀ k ∈ segments d w.1, Xml.Name k)
    (ht : ∀ w ∈ ws, ∀ u, w.2 = .text u → (∀ c ∈ u, c ≠ 0) ∧ (u ≠ [] → ∃ c ∈ u, ¬ Xml.Blank c))
    (l : Loc) (fs1 : Fs) (hw : fs.openWrite p = some (l, fs1)) (hr : fs.readable l = true) :
    ∃ t r, writeSettings d ws nil = .ok t ∧ (fs.saveXml t p).loadXml p none = (.ok r, none) ∧ HasSettings d ws r := by
  obtain ⟨t, h1, h2⟩ := writeSettings_nil d ws hg
  have hK : ∀ w ∈ ws.map (fun w => segments d w.1), ∀ k ∈ w, Xml.Name k := by
    intro w hw
    obtain ⟨x, hx, rfl⟩ := List.mem_map.1 hw
    exact hk x hx
  have kid : ∀ kn ∈ kids t, kn.1 = root ∧ Xml.Name kn.1 ∧ Xml.Storable kn.2 := by
    rintro ⟨k, c⟩ hkc
    obtain ⟨h3, h4⟩ := written_kids h2 hK (fun w _ s hs => setting_texts hf (fun s h0 h => by
      refine ⟨fun c hc => number_ne (h c hc) (by decide), fun _ => ?_⟩
      obtain ⟨c, s', rfl⟩ := List.exists_cons_of_ne_nil h0
      have hc := h c (by simp)
      refine ⟨c, by simp, ?_⟩
      rintro (hb | hb | hb | hb)
      · exact number_ne hc (by decide) hb
      · exact number_ne hc (by decide) hb
      · exact number_ne hc (by decide) hb
      · exact number_ne hc (by decide) hb) ht w s hs) hkc
    refine ⟨?_, h3, shaped_storable h4⟩
    obtain ⟨w, hw, q, hq⟩ := h2.on_path _ _ (by simp) (nodeAt_kid h2.distinct (p := []) rfl hkc)
    obtain ⟨x, hx, rfl⟩ := List.mem_map.1 hw
    have := hroot x hx
    rw [← hq] at this
    simpa using this
  have one : ∃ x, kids t = [(root, x)] := by
    obtain ⟨w, ws', rfl⟩ := List.exists_cons_of_ne_nil hne
    have hv := h2.value (segments d w.1) (by simp)
    cases ht' : t with
    | mk a v cs =>
      have hd := h2.distinct
      rw [ht'] at hd hv
      rw [ht'] at kid
      simp only [kids] at kid ⊢
      cases hd with
      | mk hd _ =>
        match cs, hd, kid, hv with
        | [], _, _, ⟨s, _, hv⟩ => rw [nodeAt_leaf rfl (segments_ne_nil d w.1)] at hv; cases hv
        | [(k, x)], _, kid, _ =>
          have := (kid (k, x) (by simp)).1
          exact ⟨x, by simpa using this⟩
        | (k, x) :: (k', x') :: cs, hd, kid, _ =>
          have e1 := (kid (k, x) (by simp)).1
          have e2 := (kid (k', x') (by simp)).1
          simp only at e1 e2
          rw [e1, e2] at hd
          simp at hd
  obtain ⟨x, hx⟩ := one
  have hkx := kid (root, x) (by rw [hx]; simp)
  obtain ⟨r, r1, r2⟩ := C78_save_load_partial fs p t x root l (openWrite_some hw).1 (by rw [hw]; rfl) hr h2.root hx hkx.2.1 hkx.2.2 none (by simp)
  exact ⟨t, r, h1, r1, written_settings hf h2 r2⟩

/-- Through an ini file: the same, if every setting is directly in a group. -/
theorem C117_ini (fs : Fs) (p : Str) (d : Byte) (ws : List (Str × Setting)) (hf : ∀ w ∈ ws, w.2.Fits)
    (h2 : ∀ w ∈ ws, (segments d w.1).length = 2) (hk : ∀ w ∈ ws, ∀ k ∈ segments d w.1, IniName k)
    (ht : ∀ w ∈ ws, ∀ u, w.2 = .text u → OneLine u ∧ Trimmed u)
    (l : Loc) (fs1 : Fs) (hw : fs.openWrite p = some (l, fs1)) (hr : fs.readable l = true) :
    ∃ t r, writeSettings d ws nil = .ok t ∧ (fs.saveIniFile t p).loadIniFile p = .ok r ∧ HasSettings d ws r := by
  obtain ⟨t, h1, hW⟩ := writeSettings_nil d ws (by
    intro w hw w' hw' h
    exact h.eq_of_length (by rw [h2 w hw, h2 w' hw']))
  have text : ∀ p s, (lastSetting d p ws).map settingStr = some s → OneLine s ∧ Trimmed s := fun p s hs => setting_texts hf (fun s _ h => by
    exact ⟨fun c hc => ⟨number_ne (h c hc) (by decide), number_ne (h c hc) (by decide), number_ne (h c hc) (by decide)⟩, number_trimmed h⟩)
    ht p s hs
  have path : ∀ q n, q ≠ [] → nodeAt q t = some n → ∃ w ∈ ws, q <+: segments d w.1 := by
    intro q n hq hn
    obtain ⟨w, hw, h⟩ := hW.on_path q n hq hn
    obtain ⟨x, hx, rfl⟩ := List.mem_map.1 hw
    exact ⟨x, hx, h⟩
  have short : ∀ k, [k] ∉ ws.map (fun w => segments d w.1) := by
    intro k hk
    obtain ⟨w, hw, hk⟩ := List.mem_map.1 hk
    have := h2 w hw
    rw [hk] at this
    simp at this
  have doc : IniDoc t [] (kids t) := by
    refine ⟨hW.root, rfl, ⟨by simp, by simp, by simp⟩, by simp, ?_⟩
    rintro ⟨k, n⟩ hkn
    have hn : nodeAt [k] t = some n := nodeAt_kid hW.distinct (p := []) rfl hkn
    obtain ⟨w, hw, q, hq⟩ := path _ _ (by simp) hn
    have hname := hk w hw k (by rw [← hq]; simp)
    refine ⟨hname.non_empty, hname.line, ?_, ?_, ?_⟩
    · by_contra hv
      exact short k (hW.has_value _ _ (by simp) hn hv)
    · intro hv
      exact short k (hW.no_kids _ _ (by simp) hn hv)
    · have sub : ∀ kn ∈ kids n, kids kn.2 = [] ∧ IniName kn.1 ∧ OneLine kn.2.value ∧ Trimmed kn.2.value := by
        rintro ⟨k', c⟩ hkc
        have hc : nodeAt [k, k'] t = some c := nodeAt_kid hW.distinct hn hkc
        obtain ⟨w, hw, hpre⟩ := path _ _ (by simp) hc
        have e := hpre.eq_of_length (by rw [h2 w hw]; rfl)
        obtain ⟨s, s1, s2, s3⟩ := written_leaf hW hc (List.mem_map.2 ⟨w, hw, e.symm⟩)
        have := text _ _ s1
        exact ⟨s3, hk w hw k' (by rw [← e]; simp), by rw [s2]; exact this.1, by rw [s2]; exact this.2⟩
      have hd := distinct_nodeAt hW.distinct hn
      refine ⟨fun kn h => (sub kn h).1, ?_, ?_⟩
      · intro kn h
        obtain ⟨-, s2, s3, s4⟩ := sub kn h
        exact ⟨s2.line, s2.trim, s2.eq, s2.comment, s3, s4, fun h => s2.header h.1⟩
      · cases hd with
        | mk hd _ => exact hd
  obtain ⟨r, r1, r2⟩ := C29_file_round_trip fs p t [] (kids t) doc l fs1 hw hr
  exact ⟨t, r, h1, r1, written_settings hf hW r2⟩

/-- Settings of every type, one of them written twice. -/
def someSettings : List (Str × Setting) :=
  [(b!"sim.steps", .int (-3)), (b!"sim.seed", .size 123), (b!"sim.fast", .flag true), (b!"sim.dt", .real .double (.fin false (1 / 4))),
    (b!"sim.title", .text b!"two words"), (b!"out.path", .text b!"x"), (b!"sim.steps", .int 7)]

example : NoGroupIsValue c!"." someSettings := by unfold NoGroupIsValue; decide +kernel
example : ∀ w ∈ someSettings, (segments c!"." w.1).length = 2 := by decide +kernel
example : lastSetting c!"." (segments c!"." b!"sim.steps") someSettings = some (.int 7) := rfl
example : (match writeSettings c!"." someSettings nil with | .ok t => savedProp true t | _ => []) =
    b!"sim\n{\n\tsteps = 7\n\tseed = 123\n\tfast = 1\n\tdt = 0.250000\n\ttitle = \"two words\"\n}\nout\n{\n\tpath = x\n}\n" := by
  decide +kernel
example : segments c!"." b!"a" <+: segments c!"." b!"a.b" ∧ segments c!"." b!"a" ≠ segments c!"." b!"a.b" := by decide +kernel

theorem someSettings_fit : ∀ w ∈ someSettings, w.2.Fits := by
  intro w hw
  simp only [someSettings, List.mem_cons, List.not_mem_nil, or_false] at hw
  rcases hw with rfl | rfl | rfl | rfl | rfl | rfl | rfl
  · exact ⟨by decide, by decide⟩
  · exact (by decide : (123 : Nat) < 2 ^ 64)
  · trivial
  · exact ⟨.inl rfl, by norm_num, by decide +kernel, ⟨1, -2, by decide +kernel, by decide, by norm_num⟩⟩
  · trivial
  · trivial
  · exact ⟨by decide, by decide⟩

theorem someSettings_text (u : Str) (w : Str × Setting) (hw : w ∈ someSettings) (h : w.2 = .text u) : u = b!"two words" ∨ u = b!"x" := by
  simp only [someSettings, List.mem_cons, List.not_mem_nil, or_false] at hw
  rcases hw with rfl | rfl | rfl | rfl | rfl | rfl | rfl <;> cases h <;> simp

/-- All hypotheses hold for them. -/
example : ∃ t r, writeSettings c!"." someSettings nil = .ok t ∧ (Fs.empty.saveProp t b!"x.prop" true).1 = true ∧
    (Fs.empty.saveProp t b!"x.prop" true).2.loadProp b!"x.prop" none = (.ok r, none) ∧ HasSettings c!"." someSettings r :=
  C117_prop Fs.empty b!"x.prop" c!"." someSettings someSettings_fit (by unfold NoGroupIsValue; decide +kernel) (by decide +kernel)
    (fun w hw u hu => by rcases someSettings_text u w hw hu with rfl | rfl <;> decide +kernel) _ _ rfl (by decide +kernel)

example : ∃ t r, writeSettings c!"." someSettings nil = .ok t ∧ (Fs.empty.saveIniFile t b!"x.ini").loadIniFile b!"x.ini" = .ok r ∧
    HasSettings c!"." someSettings r :=
  C117_ini Fs.empty b!"x.ini" c!"." someSettings someSettings_fit (by decide +kernel)
    (by
      have h : ∀ w ∈ someSettings, ∀ k ∈ segments c!"." w.1, k ≠ [] ∧ (∀ c ∈ k, c ≠ 10 ∧ c ≠ 13 ∧ c ≠ 0) ∧ Trimmed k ∧ 61 ∉ k ∧
        k.head? ≠ some 35 ∧ k.head? ≠ some 91 := by decide +kernel
      intro w hw k hk
      obtain ⟨h1, h2, h3, h4, h5, h6⟩ := h w hw k hk
      exact ⟨h1, h2, h3, h4, h5, h6⟩)
    (fun w hw u hu => by rcases someSettings_text u w hw hu with rfl | rfl <;> unfold OneLine <;> decide +kernel) _ _ rfl (by decide +kernel)

example : ∃ t r, writeSettings c!"." (someSettings.take 5) nil = .ok t ∧ (Fs.empty.saveXml t b!"x.xml").loadXml b!"x.xml" none = (.ok r, none) ∧
    HasSettings c!"." (someSettings.take 5) r :=
  C117_xml Fs.empty b!"x.xml" c!"." (someSettings.take 5) (fun w hw => someSettings_fit w (List.mem_of_mem_take hw))
    (by unfold NoGroupIsValue; decide +kernel) b!"sim" (by decide +kernel) (by decide +kernel) (by decide +kernel)
    (fun w hw u hu => by rcases someSettings_text u w (List.mem_of_mem_take hw) hu with rfl | rfl <;> decide +kernel) _ _ rfl (by decide +kernel)

end Flut
