import Verif.Props.DataText
import Verif.Props.FileSystem
import Verif.Props.StreamReal
import Verif.Spec.DebugFile

/-! # Property theorems: the file of `write_debug` (C123) -/

namespace Flut

open Spec Fs Stream

/-- The table that has been written so far. -/
def debugMatrix (hdr : List Str) (gs : List (List (Str × Flt))) : Matrix Flt Str :=
  ⟨hdr.map some, gs.map fun g => hdr.map fun l => (frameValue g l).getD debugSentinel⟩

theorem frameValue_none {g : List (Str × Flt)} {l : Str} : frameValue g l = none ↔ l ∉ g.map Prod.fst := by
  unfold frameValue
  simp only [Option.map_eq_none_iff, List.find?_eq_none, List.mem_map, not_exists, not_and, decide_eq_true_eq]

theorem frameValue_mem {g : List (Str × Flt)} {l : Str} {v : Flt} (h : frameValue g l = some v) : (l, v) ∈ g := by
  unfold frameValue at h
  obtain ⟨w, hw, rfl⟩ := Option.map_eq_some_iff.1 h
  have h1 := List.mem_of_find?_eq_some hw
  have h2 := List.find?_some hw
  simp only [decide_eq_true_eq] at h2
  subst h2
  exact h1

theorem frameValue_snoc (g : List (Str × Flt)) (l l' : Str) (v : Flt) (h : l ∉ g.map Prod.fst) :
    frameValue (g ++ [(l, v)]) l' = if l' = l then some v else frameValue g l' := by
  have e : frameValue (g ++ [(l, v)]) l' = (frameValue g l').or (frameValue [(l, v)] l') := by
    unfold frameValue
    rw [List.find?_append]
    cases g.find? (fun x => decide (x.1 = l')) <;> simp
  rw [e]
  by_cases hl : l' = l
  · subst hl
    rw [frameValue_none.2 h, if_pos rfl]
    simp [frameValue]
  · rw [if_neg hl]
    have : frameValue [(l, v)] l' = none := frameValue_none.2 (by simpa using hl)
    rw [this]; simp

theorem set_map_nodup {β : Type} (hdr : List Str) (hn : hdr.Nodup) (c : Nat) (l : Str) (h : hdr[c]? = some l) (F : Str → β) (v : β) :
    (hdr.map F).set c v = hdr.map fun l' => if l' = l then v else F l' := by
  obtain ⟨hc, hcl⟩ := List.getElem?_eq_some_iff.1 h
  apply List.ext_getElem
  · simp
  · intro i h1 h2
    simp only [List.length_set, List.length_map] at h1
    rw [List.getElem_set]
    by_cases hi : c = i
    · subst hi; simp [hcl]
    · rw [if_neg hi]
      have : hdr[i] ≠ l := fun e => hi ((hn.getElem_inj_iff (hi := hc) (hj := h1)).1 (by rw [hcl, e]))
      simp [this]

/-- One call of `write_debug`, as a step of the specification. -/
theorem debugStep_matrix (hdr : List Str) (gs : List (List (Str × Flt))) (l : Str) (v : Flt) (hn : hdr.Nodup)
    (hh : ∀ g ∈ gs, ∀ w ∈ g, w.1 ∈ hdr ∧ w.2 ≠ debugSentinel) :
    debugStep debugSentinel l v (debugMatrix hdr gs) =
      debugMatrix (if l ∈ hdr then hdr else hdr ++ [l]) (addToFrames gs (l, v)) := by
  -- the label is there
  have key : ∀ hdr' : List Str, hdr'.Nodup → l ∈ hdr' →
      debugStep debugSentinel l v (debugMatrix hdr' gs) = debugMatrix hdr' (addToFrames gs (l, v)) := by
    intro hdr' hn' hl
    have hmem : some l ∈ hdr'.map some := List.mem_map.2 ⟨l, hl, rfl⟩
    obtain ⟨c, hc⟩ : ∃ c, (hdr'.map some).findIdx? (· = some l) = some c := by
      cases e : (hdr'.map some).findIdx? (· = some l) with
      | none => simpa using List.findIdx?_eq_none_iff.1 e _ hmem
      | some c => exact ⟨c, rfl⟩
    have hcl : hdr'[c]? = some l := by
      have := findIdx?_label _ _ _ hc
      simpa using this
    have hnew : (List.replicate hdr'.length debugSentinel).set c v =
        hdr'.map fun l' => (frameValue [(l, v)] l').getD debugSentinel := by
      have e : List.replicate hdr'.length debugSentinel = hdr'.map fun _ => debugSentinel := by simp
      rw [e, set_map_nodup hdr' hn' c l hcl]
      apply List.map_congr_left
      intro l' _
      have := frameValue_snoc [] l l' v (by simp)
      rw [List.nil_append] at this
      rw [this]
      by_cases h : l' = l <;> simp [h, frameValue]
    unfold debugStep debugMatrix
    dsimp only
    rw [if_pos hmem]
    dsimp only
    rw [hc]
    dsimp only
    rw [List.getLast?_map]
    unfold addToFrames
    rcases hg : gs.getLast? with _ | g
    · have : gs = [] := List.getLast?_eq_none_iff.1 hg
      subst this
      simp only [Option.map_none, List.length_map, List.map_cons, List.map_nil, hnew]
    · have hgm : g ∈ gs := List.mem_of_getLast? hg
      have hrow : (hdr'.map fun l => (frameValue g l).getD debugSentinel)[c]? = some ((frameValue g l).getD debugSentinel) := by
        rw [List.getElem?_map, hcl]; rfl
      simp only [Option.map_some, hrow, Option.some.injEq]
      by_cases hl' : l ∈ g.map Prod.fst
      · have : frameValue g l ≠ none := fun h => frameValue_none.1 h hl'
        obtain ⟨x, hx⟩ := Option.ne_none_iff_exists'.1 this
        have hxs : x ≠ debugSentinel := (hh g hgm _ (frameValue_mem hx)).2
        rw [hx, if_pos hl', if_neg (by simpa using hxs), List.length_map, hnew]
        simp
      · rw [frameValue_none.2 hl', if_neg hl', if_pos (by simp)]
        rw [set_map_nodup hdr' hn' c l hcl]
        have e : (hdr'.map fun l' => if l' = l then v else (frameValue g l').getD debugSentinel) =
            hdr'.map fun l' => (frameValue (g ++ [(l, v)]) l').getD debugSentinel := by
          apply List.map_congr_left
          intro l' _
          rw [frameValue_snoc g l l' v hl']
          by_cases h : l' = l <;> simp [h]
        rw [e]
        simp
  by_cases hl : l ∈ hdr
  · rw [if_pos hl]
    exact key hdr hn hl
  · rw [if_neg hl, ← key (hdr ++ [l]) (List.nodup_append.2 ⟨hn, by simp, by
      intro a ha b hb
      rw [List.mem_singleton.1 hb]
      rintro rfl
      exact hl ha⟩) (by simp)]
    have hl1 : some l ∉ (debugMatrix hdr gs).labels := by simpa [debugMatrix] using hl
    have hl2 : some l ∈ (debugMatrix (hdr ++ [l]) gs).labels := by simp [debugMatrix]
    unfold debugStep
    rw [if_neg hl1, if_pos hl2]
    have : debugMatrix (hdr ++ [l]) gs = ⟨(debugMatrix hdr gs).labels ++ [some l], (debugMatrix hdr gs).rows.map (· ++ [debugSentinel])⟩ := by
      unfold debugMatrix
      simp only [List.map_append, List.map_cons, List.map_nil, List.map_map, Matrix.mk.injEq, true_and]
      apply List.map_congr_left
      intro g hg
      have : frameValue g l = none := frameValue_none.2 (by
        intro h
        obtain ⟨w, hw, rfl⟩ := List.mem_map.1 h
        exact hl (hh g hg w hw).1)
      simp [this]
    rw [this]

theorem addToFrames_mem {gs : List (List (Str × Flt))} {w : Str × Flt} {g : List (Str × Flt)} (hg : g ∈ addToFrames gs w) :
    ∀ x ∈ g, x = w ∨ ∃ g' ∈ gs, x ∈ g' := by
  unfold addToFrames at hg
  intro x hx
  rcases hl : gs.getLast? with _ | g'
  · rw [hl] at hg
    simp only [List.mem_singleton] at hg
    subst hg
    exact Or.inl (List.mem_singleton.1 hx)
  · rw [hl] at hg
    dsimp only at hg
    split at hg
    · rcases List.mem_append.1 hg with h | h
      · exact Or.inr ⟨g, h, hx⟩
      · rw [List.mem_singleton.1 h] at hx
        exact Or.inl (List.mem_singleton.1 hx)
    · rcases List.mem_append.1 hg with h | h
      · exact Or.inr ⟨g, List.mem_of_mem_dropLast h, hx⟩
      · rw [List.mem_singleton.1 h] at hx
        rcases List.mem_append.1 hx with h | h
        · exact Or.inr ⟨g', List.mem_of_getLast? hl, h⟩
        · exact Or.inl (List.mem_singleton.1 h)

theorem debugHeader_snoc (ws : List (Str × Flt)) (w : Str × Flt) :
    debugHeader (ws ++ [w]) = if w.1 ∈ debugHeader ws then debugHeader ws else debugHeader ws ++ [w.1] := by
  unfold debugHeader
  rw [List.map_append, List.eraseDups_append]
  by_cases h : w.1 ∈ (ws.map Prod.fst).eraseDups
  · rw [if_pos h]
    rw [List.mem_eraseDups] at h
    simp [List.removeAll, h]
  · rw [if_neg h]
    rw [List.mem_eraseDups] at h
    simp [List.removeAll, h, List.eraseDups_cons]

theorem debugHeader_nodup (ws : List (Str × Flt)) : (debugHeader ws).Nodup := by
  induction ws using List.reverseRecOn with
  | nil => exact List.nodup_nil
  | append_singleton ws w ih =>
    rw [debugHeader_snoc]
    split
    · exact ih
    · rename_i h
      refine List.nodup_append.2 ⟨ih, by simp, ?_⟩
      intro a ha b hb
      rw [List.mem_singleton.1 hb]
      rintro rfl
      exact h ha

/-- What has been written determines the table. -/
theorem debugCalls_matrix (cs : List DebugCall) : ∀ (ws : List (Str × Flt)) (w : DebugWriter), (∀ x ∈ ws ++ writes cs, x.2 ≠ debugSentinel) →
    Storage.Rep [] w.storage (debugMatrix (debugHeader ws) (debugFrames ws)) →
    ∃ w', debugCalls cs w = .ok w' ∧ w'.filename = lastName w.filename cs ∧
      Storage.Rep [] w'.storage (debugMatrix (debugHeader (ws ++ writes cs)) (debugFrames (ws ++ writes cs))) := by
  have frames : ∀ (ws : List (Str × Flt)), ∀ g ∈ debugFrames ws, ∀ x ∈ g, x ∈ ws := by
    intro ws
    induction ws using List.reverseRecOn with
    | nil => intro g hg; cases hg
    | append_singleton ws w ih =>
      intro g hg x hx
      unfold debugFrames at hg
      rw [List.foldl_append] at hg
      rcases addToFrames_mem hg x hx with rfl | ⟨g', hg', hx'⟩
      · simp
      · exact List.mem_append_left _ (ih g' hg' x hx')
  induction cs with
  | nil => intro ws w _ r; exact ⟨w, rfl, rfl, by simpa [writes] using r⟩
  | cons c cs ih =>
    intro ws w hw r
    cases c with
    | output p =>
      obtain ⟨w', h1, h2, h3⟩ := ih ws { w with filename := p } hw r
      exact ⟨w', by simp only [debugCalls, debugCall, Res.bind_ok, h1], h2, h3⟩
    | write l v =>
      obtain ⟨s, h1, r1⟩ := rep_debugWrite r debugSentinel l v
      have e : debugStep debugSentinel l v (debugMatrix (debugHeader ws) (debugFrames ws)) =
          debugMatrix (debugHeader (ws ++ [(l, v)])) (debugFrames (ws ++ [(l, v)])) := by
        rw [debugStep_matrix _ _ _ _ (debugHeader_nodup ws) ?_, debugHeader_snoc]
        · unfold debugFrames; rw [List.foldl_append]; rfl
        · intro g hg x hx
          have := frames ws g hg x hx
          exact ⟨List.mem_eraseDups.2 (List.mem_map.2 ⟨x, this, rfl⟩), hw x (List.mem_append_left _ this)⟩
      rw [e] at r1
      have e2 : ws ++ writes (.write l v :: cs) = ws ++ [(l, v)] ++ writes cs := by simp [writes]
      obtain ⟨w', h2, h3, h4⟩ := ih (ws ++ [(l, v)]) { w with storage := s } (by rw [← e2]; exact hw) r1
      refine ⟨w', by simp only [debugCalls, debugCall, h1, Res.bind_ok, h2], h3, by rw [e2]; exact h4⟩

/-- Text of a value is a field. -/
theorem realText_plain {f : Fmt} {x : Flt} (hx : IsFloat f x) : PlainField (realText x) := by
  have hsign : ∀ (neg : Bool) (w : Str), (∀ c ∈ w, c ≠ 9 ∧ c ≠ 10) → ∀ c ∈ ((if neg then [45] else []) ++ w : Str), c ≠ 9 ∧ c ≠ 10 := by
    intro neg w h c hc
    rcases List.mem_append.1 hc with hc | hc
    · cases neg
      · cases hc
      · rw [List.mem_singleton.1 hc]; decide
    · exact h c hc
  have key : ∀ c ∈ realText x, c ≠ 9 ∧ c ≠ 10 := by
    cases x with
    | fin neg m =>
      have hch := (decimal_chars (magText_decimal hx.1)).2
      have hk : ∀ c : Byte, (48 ≤ c.toNat ∧ c.toNat ≤ 57) ∨ c ∈ b!".eE+-" → c ≠ 9 ∧ c ≠ 10 := byte_all (by decide +kernel)
      exact hsign neg _ fun c hc => hk c (hch c hc)
    | inf neg => exact hsign neg _ (by decide)
    | nan neg => exact hsign neg _ (by decide)
  exact ⟨fun h => (key 9 h).1 rfl, fun h => (key 10 h).2 rfl⟩

theorem sentinel_float : IsFloat .single debugSentinel := ⟨by decide +kernel, le_rfl, 2 ^ 24 - 1, 104, by decide, by decide, by decide +kernel⟩

theorem one_float : IsFloat .single (.fin false 1) := ⟨by norm_num, by decide +kernel, 1, 0, by decide, by decide, by norm_num⟩

theorem start_rep : Storage.Rep [] debugStart.storage (debugMatrix (debugHeader []) (debugFrames [])) :=
  Storage.rep_new [] 0 0 (.fin false 0)

/-- The frames are what was written, in order. -/
theorem debugFrames_flatten (ws : List (Str × Flt)) : (debugFrames ws).flatten = ws := by
  induction ws using List.reverseRecOn with
  | nil => rfl
  | append_singleton ws w ih =>
    have e : debugFrames (ws ++ [w]) = addToFrames (debugFrames ws) w := by unfold debugFrames; rw [List.foldl_append]; rfl
    rw [e]
    unfold addToFrames
    rcases hl : (debugFrames ws).getLast? with _ | g
    · have : debugFrames ws = [] := List.getLast?_eq_none_iff.1 hl
      rw [this] at ih
      rw [← ih]; rfl
    · dsimp only
      split
      · simp [ih]
      · have e2 : debugFrames ws = (debugFrames ws).dropLast ++ [g] := by
          obtain ⟨l, hl'⟩ := List.getLast?_eq_some_iff.1 hl
          rw [hl']; simp
        have : ((debugFrames ws).dropLast ++ [g]).flatten = ws := by rw [← e2]; exact ih
        simp only [List.flatten_append, List.flatten_cons, List.flatten_nil, List.append_nil] at this ⊢
        rw [← List.append_assoc, this]

/-- C123. When the program ends, the file named last holds a line with the labels in the order of their first use and a line for every
frame: the values in the frame under their labels, to six digits, and the sentinel under the others. A frame ends where a label
comes again. Nothing else is written. -/
theorem C123_file (fs fs1 : Fs) (cs : List DebugCall) (l : Loc) (hl : ∀ w ∈ writes cs, PlainField w.1)
    (hv : ∀ w ∈ writes cs, IsFloat .single w.2 ∧ w.2 ≠ debugSentinel) (hne : writes cs ≠ [])
    (ho : fs.openWrite (lastName b!"debug.txt" cs) = some (l, fs1)) :
    ∃ w t, debugCalls cs debugStart = .ok w ∧ debugExit fs w = .ok (fs.put l (.file t)) ∧
      readTable t = debugHeader (writes cs) :: (debugFrames (writes cs)).map fun g =>
        (debugHeader (writes cs)).map fun l => realText ((frameValue g l).getD debugSentinel) := by
  obtain ⟨w, h1, h2, r⟩ := debugCalls_matrix cs [] debugStart (fun x hx => (hv x (by simpa using hx)).2) start_rep
  rw [List.nil_append] at r
  have hh : debugHeader (writes cs) ≠ [] := by
    obtain ⟨x, xs, hx⟩ := List.exists_cons_of_ne_nil hne
    intro h
    have : x.1 ∈ debugHeader (writes cs) := List.mem_eraseDups.2 (by simp [hx])
    rw [h] at this; cases this
  have hf : debugFrames (writes cs) ≠ [] := by
    intro h
    have := debugFrames_flatten (writes cs)
    rw [h] at this
    exact hne this.symm
  have hpos : 0 < (debugMatrix (debugHeader (writes cs)) (debugFrames (writes cs))).labels.length := by
    simpa [debugMatrix] using List.length_pos_iff.2 hh
  have hrows : 0 < (debugMatrix (debugHeader (writes cs)) (debugFrames (writes cs))).rows.length := by
    simpa [debugMatrix] using List.length_pos_iff.2 hf
  have hemp : w.storage.empty = false := by
    unfold Storage.empty
    have := r.dataLength
    have hp := Nat.mul_pos hrows hpos
    rw [← this] at hp
    cases hd : w.storage.data with
    | nil => rw [hd] at hp; cases hp
    | cons => rfl
  have ht := Storage.text_eq r id realText hpos
  have e1 : (debugMatrix (debugHeader (writes cs)) (debugFrames (writes cs))).labels.map (fun l => id (l.getD [])) = debugHeader (writes cs) := by
    simp [debugMatrix]
  have e2 : (debugMatrix (debugHeader (writes cs)) (debugFrames (writes cs))).rows.map (·.map realText) =
      (debugFrames (writes cs)).map fun g => (debugHeader (writes cs)).map fun l => realText ((frameValue g l).getD debugSentinel) := by
    simp [debugMatrix]
  rw [e1, e2] at ht
  refine ⟨w, _, h1, ?_, readTable_lines _ ?_ ?_⟩
  · unfold debugExit
    rw [hemp, h2, show debugStart.filename = b!"debug.txt" from rfl, ho]
    obtain ⟨_, rfl, _⟩ := openWrite_some ho
    simp only [Bool.false_eq_true, if_false, ht, Res.bind_ok]
    unfold put
    congr 2
    funext m
    by_cases hm : m = l <;> simp [hm]
  · intro row hrow
    rw [← List.length_pos_iff]
    simp only [List.mem_cons, List.mem_map] at hrow
    rcases hrow with rfl | ⟨row, hrow, rfl⟩
    · exact List.length_pos_iff.2 hh
    · rw [List.length_map]; exact List.length_pos_iff.2 hh
  · intro row hrow
    simp only [List.mem_cons, List.mem_map] at hrow
    rcases hrow with rfl | ⟨g, hg, rfl⟩
    · intro x hx
      obtain ⟨y, hy, rfl⟩ := List.mem_map.1 (List.mem_eraseDups.1 hx)
      exact hl y hy
    · intro x hx
      obtain ⟨y, hy, rfl⟩ := List.mem_map.1 hx
      cases hfv : frameValue g y with
      | none => exact realText_plain (f := .single) sentinel_float
      | some v =>
        have : (y, v) ∈ writes cs := by
          rw [← debugFrames_flatten (writes cs)]
          exact List.mem_flatten.2 ⟨g, hg, frameValue_mem hfv⟩
        exact realText_plain (hv _ this).1

/-- C123. In particular the fields under a label, without those that are the sentinel, are the values written with that label, to six digits and
in order; values that look like the sentinel are missing too. -/
theorem C123_column (ws : List (Str × Flt)) (l : Str) :
    ((debugFrames ws).map fun g => realText ((frameValue g l).getD debugSentinel)).filter (· ≠ realText debugSentinel) =
      ((ws.filter (·.1 = l)).map fun w => realText w.2).filter (· ≠ realText debugSentinel) := by
  have nodup : ∀ g ∈ debugFrames ws, (g.map Prod.fst).Nodup := by
    induction ws using List.reverseRecOn with
    | nil => intro g hg; cases hg
    | append_singleton ws w ih =>
      intro g hg
      have e : debugFrames (ws ++ [w]) = addToFrames (debugFrames ws) w := by unfold debugFrames; rw [List.foldl_append]; rfl
      rw [e] at hg
      unfold addToFrames at hg
      rcases hl : (debugFrames ws).getLast? with _ | g'
      · rw [hl] at hg
        rw [List.mem_singleton.1 hg]; simp
      · rw [hl] at hg
        dsimp only at hg
        split at hg
        · rcases List.mem_append.1 hg with h | h
          · exact ih g h
          · rw [List.mem_singleton.1 h]; simp
        · rename_i hn
          rcases List.mem_append.1 hg with h | h
          · exact ih g (List.mem_of_mem_dropLast h)
          · rw [List.mem_singleton.1 h, List.map_append]
            refine List.nodup_append.2 ⟨ih g' (List.mem_of_getLast? hl), by simp, ?_⟩
            intro a ha b hb
            rintro rfl
            simp only [List.map_cons, List.map_nil, List.mem_singleton] at hb
            exact hn (hb ▸ ha)
  have one : ∀ g : List (Str × Flt), (g.map Prod.fst).Nodup → (g.filter (·.1 = l)).map Prod.snd = (frameValue g l).toList := by
    intro g
    induction g with
    | nil => intro _; rfl
    | cons w g ih =>
      intro hn
      rw [List.map_cons, List.nodup_cons] at hn
      by_cases h : w.1 = l
      · have h0 : frameValue g l = none := frameValue_none.2 (h ▸ hn.1)
        have := ih hn.2
        rw [h0] at this
        rw [List.filter_cons_of_pos (by simpa using h), List.map_cons, this]
        simp [frameValue, h]
      · rw [List.filter_cons_of_neg (by simpa using h), ih hn.2]
        simp [frameValue, h]
  have main : ∀ gs : List (List (Str × Flt)), (∀ g ∈ gs, (g.map Prod.fst).Nodup) →
      (gs.map fun g => realText ((frameValue g l).getD debugSentinel)).filter (· ≠ realText debugSentinel) =
        ((gs.flatten.filter (·.1 = l)).map fun w => realText w.2).filter (· ≠ realText debugSentinel) := by
    intro gs
    induction gs with
    | nil => intro _; rfl
    | cons g gs ih =>
      intro h
      have e : ((g.filter (·.1 = l)).map fun w => realText w.2) = (frameValue g l).toList.map realText := by
        rw [← one g (h g (by simp)), List.map_map]; rfl
      rw [List.flatten_cons, List.filter_append, List.map_append, List.filter_append, e, ← ih fun g hg => h g (by simp [hg]),
        List.map_cons, List.filter_cons]
      cases frameValue g l with
      | none => simp
      | some v => by_cases hv : realText v = realText debugSentinel <;> simp [hv]
  have := main (debugFrames ws) nodup
  rwa [debugFrames_flatten] at this

/-- C123. The number in such a field is the value to six digits. -/
theorem C123_number (x : Flt) (hx : IsFloat .single x) (hfin : ∃ s m, x = .fin s m) (old : Flt) :
    ∃ y, readReal .single old ⟨realText x, false⟩ = (y, ⟨[], false⟩) ∧ ComesBack .single x y := by
  obtain ⟨s, m, rfl⟩ := hfin
  have := readReal_text (Or.inr rfl) old (ws := []) (rest := []) hx (by simp) nil_ends
  rw [List.nil_append, List.append_nil] at this
  exact ⟨_, this, comesBack_fin (Or.inr rfl) hx⟩

/-- C123. The sentinel is the lowest of the finite numbers; this is how it looks in the file. -/
theorem C123_mark : IsFloat .single debugSentinel ∧ (∀ s m, IsFloat .single (.fin s m) → AtMost debugSentinel (.fin s m)) ∧
    realText debugSentinel = b!"-3.40282e+38" := by
  refine ⟨sentinel_float, fun s m h => ?_, by decide +kernel⟩
  show AtMost (.fin true Fmt.single.maxVal) _
  rw [atMost_fin]
  have := neg_le_of_abs_le (isFloat_abs h)
  simpa [Flt.val] using this

/-- C123. Nothing happens to any file if nothing was written, or if the file cannot be opened. -/
theorem C123_untouched (fs : Fs) (cs : List DebugCall) (hv : ∀ w ∈ writes cs, w.2 ≠ debugSentinel)
    (h : writes cs = [] ∨ fs.openWrite (lastName b!"debug.txt" cs) = none) :
    ∃ w, debugCalls cs debugStart = .ok w ∧ debugExit fs w = .ok fs := by
  obtain ⟨w, h1, h2, r⟩ := debugCalls_matrix cs [] debugStart (fun x hx => hv x (by simpa using hx)) start_rep
  refine ⟨w, h1, ?_⟩
  unfold debugExit
  rcases h with h | h
  · rw [h] at r
    have hd := r.data
    have : w.storage.empty = true := by unfold Storage.empty; rw [hd]; rfl
    rw [this]; rfl
  · rw [h2, show debugStart.filename = b!"debug.txt" from rfl, h]
    split <;> rfl

/-- C123. Two programs that write different values can leave the same file: the sentinel itself is overwritten by the next value with its label. -/
theorem C123_sentinel_refuted : ∃ cs cs' : List DebugCall, writes cs ≠ writes cs' ∧ (∀ w ∈ writes cs ++ writes cs', IsFloat .single w.2) ∧
    (debugCalls cs debugStart >>= fun w => .ok w.storage) = (debugCalls cs' debugStart >>= fun w => .ok w.storage) :=
  ⟨[.write b!"a" debugSentinel, .write b!"a" (.fin false 1)], [.write b!"a" (.fin false 1)], by decide +kernel, by
    intro w hw
    simp only [writes, List.cons_append, List.nil_append, List.mem_cons, List.not_mem_nil, or_false] at hw
    rcases hw with rfl | rfl | rfl
    · exact sentinel_float
    · exact one_float
    · exact one_float, by decide +kernel⟩

def debugProgram : List DebugCall := [.write b!"x" (.fin false (1 / 2)), .write b!"y" (.fin true 3), .output b!"out.txt", .write b!"x" (.fin false 1234567),
  .write b!"z" (.fin false 0), .write b!"x" (.fin false 2)]

/-- A program that meets the hypotheses, and its table. -/
example : (∀ w ∈ writes debugProgram, ((9 : Byte) ∉ w.1 ∧ (10 : Byte) ∉ w.1) ∧ w.2 ≠ debugSentinel) ∧ writes debugProgram ≠ [] ∧ lastName b!"debug.txt" debugProgram = b!"out.txt" ∧
    (∀ w ∈ writes debugProgram, IsFloat .single w.2) ∧ (Fs.empty.openWrite b!"out.txt").isSome ∧
    debugHeader (writes debugProgram) = [b!"x", b!"y", b!"z"] ∧
    (debugCalls debugProgram debugStart >>= fun w => w.storage.text id realText) =
      .ok b!"x\ty\tz\n0.5\t-3\t-3.40282e+38\n1.23457e+06\t-3.40282e+38\t0\n2\t-3.40282e+38\t-3.40282e+38\n" := by
  refine ⟨by decide +kernel, by decide +kernel, by decide +kernel, ?_, by decide +kernel, by decide +kernel, by decide +kernel⟩
  intro w hw
  simp only [debugProgram, writes, List.mem_cons, List.not_mem_nil, or_false] at hw
  rcases hw with rfl | rfl | rfl | rfl | rfl
  · exact ⟨by norm_num, by decide +kernel, 1, -1, by decide, by decide, by norm_num⟩
  · exact ⟨by norm_num, by decide +kernel, 3, 0, by decide, by decide, by norm_num⟩
  · exact ⟨by norm_num, by decide +kernel, 1234567, 0, by decide, by decide, by norm_num⟩
  · exact ⟨by norm_num, by decide +kernel, 0, 0, by decide, by decide, by norm_num⟩
  · exact ⟨by norm_num, by decide +kernel, 2, 0, by decide, by decide, by norm_num⟩

end Flut
