import Verif.Model.Path
import Verif.Props.Strings

/-! # Properties C09–C12: paths and identifiers -/

namespace Flut

open Spec

/-- A folder separator. -/
def Spec.IsSep (c : Byte) : Prop := c = 47 ∨ c = 92

instance (c : Byte) : Decidable (IsSep c) := inferInstanceAs (Decidable (_ ∨ _))

theorem isSep_iff {c : Byte} : isSep c = true ↔ IsSep c := by simp [isSep, IsSep]
theorem isSep_false {c : Byte} : isSep c = false ↔ ¬ IsSep c := by
  rw [← isSep_iff]; simp

theorem lastSep_split {a b : Str} {c : Byte} (hc : IsSep c) (hb : ∀ d ∈ b, ¬ IsSep d) :
    lastSeparatorPos (a ++ c :: b) = some a.length :=
  findLast_append_cons (isSep_iff.2 hc) fun d hd => isSep_false.2 (hb d hd)

theorem lastSep_none {p : Str} (h : ∀ d ∈ p, ¬ IsSep d) : lastSeparatorPos p = none :=
  findLast_eq_none.2 fun d hd => isSep_false.2 (h d hd)

theorem exists_lastSep (p : Str) : (∀ d ∈ p, ¬ IsSep d) ∨
    ∃ a c b, p = a ++ c :: b ∧ IsSep c ∧ ∀ d ∈ b, ¬ IsSep d := by
  cases h : lastSeparatorPos p with
  | none => exact Or.inl fun d hd => isSep_false.1 (findLast_eq_none.1 h d hd)
  | some i =>
    obtain ⟨a, c, b, h1, -, h2, h3⟩ := findLast_eq_some.1 h
    exact Or.inr ⟨a, c, b, h1, isSep_iff.1 h2, fun d hd => isSep_false.1 (h3 d hd)⟩

theorem exists_lastDot (p : Str) : (∀ d ∈ p, d ≠ 46) ∨
    ∃ a b, p = a ++ 46 :: b ∧ ∀ d ∈ b, d ≠ 46 := by
  cases h : findLast (· == 46) p with
  | none => exact Or.inl fun d hd => by simpa using findLast_eq_none.1 h d hd
  | some i =>
    obtain ⟨a, c, b, h1, -, h2, h3⟩ := findLast_eq_some.1 h
    have : c = 46 := by simpa using h2
    subst this
    exact Or.inr ⟨a, b, h1, fun d hd => by simpa using h3 d hd⟩

/-- `has_filename` says: not empty and not ending in a separator. -/
theorem hasFilename_iff (p : Str) :
    hasFilename p = true ↔ ∃ a c, p = a ++ [c] ∧ ¬ IsSep c := by
  rcases List.eq_nil_or_concat p with rfl | ⟨a, c, hp⟩
  · simp [hasFilename, lastSeparatorPos, findLast, predWrap]
  · rw [List.concat_eq_append] at hp
    subst hp
    have hl : predWrap (a ++ [c]).length = some a.length := by simp [predWrap]
    simp only [hasFilename, hl, bne_iff_ne]
    constructor
    · intro h
      refine ⟨a, c, rfl, fun hc => h ?_⟩
      exact lastSep_split (b := []) hc (by simp)
    · rintro ⟨a', c', h1, h2⟩ h
      have hcc : a = a' ∧ c = c' := by simpa using h1
      obtain ⟨rfl, rfl⟩ := hcc
      obtain ⟨x, d, y, h3, h4, h5, -⟩ := findLast_eq_some.1 h
      have hy : y = [] := by
        have := congrArg List.length h3
        simp at this
        exact List.eq_nil_of_length_eq_zero (by omega)
      subst hy
      have : c = d := by
        have h3' : a ++ [c] = x ++ [d] := by simpa using h3
        simpa using (List.append_inj_right' h3' rfl)
      subst this
      exact h2 (isSep_iff.1 h5)

/-! ## C09 joining -/

/-- C09. The three cases of `p / q`: nothing is inserted after an empty path or a trailing separator,
one `/` otherwise. -/
theorem C09_join_cases (p q : Str) :
    (p = [] → join p q = q) ∧
    (∀ a c, p = a ++ [c] → IsSep c → join p q = p ++ q) ∧
    (∀ a c, p = a ++ [c] → ¬ IsSep c → join p q = p ++ 47 :: q) := by
  refine ⟨?_, ?_, ?_⟩
  · rintro rfl
    have : hasFilename [] = false := rfl
    simp [join, this]
  · rintro a c rfl hc
    have : hasFilename (a ++ [c]) = false := by
      rw [Bool.eq_false_iff]
      intro h
      obtain ⟨a', c', h1, h2⟩ := (hasFilename_iff _).1 h
      have hcc : a = a' ∧ c = c' := by simpa using h1
      exact h2 (hcc.2 ▸ hc)
    simp [join, this]
  · rintro a c rfl hc
    have : hasFilename (a ++ [c]) = true := (hasFilename_iff _).2 ⟨a, c, rfl, hc⟩
    simp [join, this]

/-- C09. `operator/=` computes the same path as `operator/`. -/
theorem C09_join_assign (p q : Str) : joinAssign p q = join p q := by
  cases h : hasFilename p <;> simp [joinAssign, join, h]

/-- C09. Parent and file name of a joined path. -/
theorem C09_join_parent_filename (a q : Str) (c : Byte) (hc : ¬ IsSep c) (hq : ∀ d ∈ q, ¬ IsSep d) :
    parentPath (join (a ++ [c]) q) = .ok (a ++ [c]) ∧ filename (join (a ++ [c]) q) = .ok q := by
  rw [(C09_join_cases (a ++ [c]) q).2.2 a c rfl hc]
  have h := lastSep_split (a := a ++ [c]) (c := 47) (b := q) (Or.inl rfl) hq
  constructor
  · simp only [parentPath, h, substr_zero]
    rw [List.take_append_of_le_length (Nat.le_refl _), List.take_of_length_le (Nat.le_refl _)]
  · simp only [filename, h]
    have := substr_append (pre := a ++ [c] ++ [47]) (post := q)
    simpa using this

/-- C09. Joining is associative. -/
theorem C09_join_assoc (p q r : Str) : join (join p q) r = join p (join q r) := by
  have hcases : ∀ s : Str, s = [] ∨ (∃ a c, s = a ++ [c] ∧ IsSep c) ∨ (∃ a c, s = a ++ [c] ∧ ¬ IsSep c) := by
    intro s
    rcases List.eq_nil_or_concat s with rfl | ⟨a, c, rfl⟩
    · exact Or.inl rfl
    · by_cases h : IsSep c
      · exact Or.inr (Or.inl ⟨a, c, by simp, h⟩)
      · exact Or.inr (Or.inr ⟨a, c, by simp, h⟩)
  have J0 : ∀ x, join [] x = x := fun x => (C09_join_cases [] x).1 rfl
  have J1 : ∀ a c x, IsSep c → join (a ++ [c]) x = a ++ [c] ++ x :=
    fun a c x h => (C09_join_cases (a ++ [c]) x).2.1 a c rfl h
  have J2 : ∀ a c x, ¬ IsSep c → join (a ++ [c]) x = a ++ [c] ++ 47 :: x :=
    fun a c x h => (C09_join_cases (a ++ [c]) x).2.2 a c rfl h
  rcases hcases p with rfl | ⟨a, c, rfl, hc⟩ | ⟨a, c, rfl, hc⟩
  · simp [J0]
  · rcases hcases q with rfl | ⟨b, d, rfl, hd⟩ | ⟨b, d, rfl, hd⟩
    · simp [J0, J1 _ _ _ hc]
    · have e : a ++ [c] ++ (b ++ [d]) = (a ++ [c] ++ b) ++ [d] := by simp
      rw [J1 _ _ _ hc, e, J1 _ _ _ hd, J1 _ _ _ hd, J1 _ _ _ hc]; simp
    · have e : a ++ [c] ++ (b ++ [d]) = (a ++ [c] ++ b) ++ [d] := by simp
      rw [J1 _ _ _ hc, e, J2 _ _ _ hd, J2 _ _ _ hd, J1 _ _ _ hc]; simp
  · rcases hcases q with rfl | ⟨b, d, rfl, hd⟩ | ⟨b, d, rfl, hd⟩
    · have e : a ++ [c] ++ [47] = (a ++ [c]) ++ [47] := rfl
      rw [J2 _ _ _ hc, J1 _ 47 _ (Or.inl rfl), J0, J2 _ _ _ hc]; simp
    · have e : a ++ [c] ++ 47 :: (b ++ [d]) = (a ++ [c] ++ 47 :: b) ++ [d] := by simp
      rw [J2 _ _ _ hc, e, J1 _ _ _ hd, J1 _ _ _ hd, J2 _ _ _ hc]; simp
    · have e : a ++ [c] ++ 47 :: (b ++ [d]) = (a ++ [c] ++ 47 :: b) ++ [d] := by simp
      rw [J2 _ _ _ hc, e, J2 _ _ _ hd, J2 _ _ _ hd, J2 _ _ _ hc]; simp

example : join b!"out/run" b!"log.txt" = b!"out/run/log.txt" := by decide
example : join b!"out/" b!"log.txt" = b!"out/log.txt" := by decide

/-! ## C10 decomposition -/

/-- C10. A path with a separator is its parent, that separator, and its file name. -/
theorem C10_decompose (a b : Str) (c : Byte) (hc : IsSep c) (hb : ∀ d ∈ b, ¬ IsSep d) :
    parentPath (a ++ c :: b) = .ok a ∧ filename (a ++ c :: b) = .ok b ∧
    removeFilename (a ++ c :: b) = .ok a ∧ hasParentPath (a ++ c :: b) = true := by
  have h := lastSep_split (a := a) hc hb
  refine ⟨by simp [parentPath, h, substr_zero], ?_, by simp [removeFilename, h, substr_zero],
    by simp [hasParentPath, h]⟩
  simp only [filename, h]
  have := substr_append (pre := a ++ [c]) (post := b)
  simpa using this

/-- C10. A path without separator has an empty parent and, in this code, an empty file name. -/
theorem C10_no_separator (p : Str) (hp : ∀ d ∈ p, ¬ IsSep d) :
    parentPath p = .ok [] ∧ filename p = .ok [] ∧ removeFilename p = .ok [] ∧
    hasParentPath p = false := by
  have h := lastSep_none hp
  simp [parentPath, filename, removeFilename, hasParentPath, h]

/-- C10. `remove_filename` and `parent_path` agree on every path, and `replace_filename` joins the new
name onto the parent. -/
theorem C10_replace_filename (p f : Str) : removeFilename p = parentPath p ∧
    ∃ d, parentPath p = .ok d ∧ replaceFilename p f = .ok (join d f) := by
  refine ⟨rfl, ?_⟩
  rcases exists_lastSep p with h | ⟨a, c, b, rfl, hc, hb⟩
  · obtain ⟨h1, -, h3, -⟩ := C10_no_separator p h
    exact ⟨[], h1, by simp [replaceFilename, h3, C09_join_assign]⟩
  · obtain ⟨h1, -, h3, -⟩ := C10_decompose a b c hc hb
    exact ⟨a, h1, by simp [replaceFilename, h3, C09_join_assign]⟩

/-- C10. Parent joined with file name is the path again, up to the kind of separator, when the parent is
non-empty and does not end in a separator itself. -/
theorem C10_recompose (a b : Str) (x c : Byte) (hx : ¬ IsSep x) (hc : IsSep c) (hb : ∀ d ∈ b, ¬ IsSep d) :
    ∃ d f, parentPath (a ++ [x] ++ c :: b) = .ok d ∧ filename (a ++ [x] ++ c :: b) = .ok f ∧
      makePreferred (join d f) = makePreferred (a ++ [x] ++ c :: b) := by
  obtain ⟨h1, h2, -, -⟩ := C10_decompose (a ++ [x]) b c hc hb
  refine ⟨_, _, h1, h2, ?_⟩
  rw [(C09_join_cases (a ++ [x]) b).2.2 a x rfl hx]
  have hc' : c = 47 ∨ c = 92 := hc
  simp [makePreferred, hc']

/-- C10, finding: the root folder is lost, so recomposition fails for a file directly in `/`; and the file
name of a plain name is empty. -/
theorem C10_root_refuted :
    (∃ d f, parentPath b!"/f" = .ok d ∧ filename b!"/f" = .ok f ∧ join d f = b!"f") ∧
    replaceFilename b!"/f" b!"g" = .ok b!"g" ∧
    filename b!"f.txt" = .ok [] :=
  ⟨⟨[], b!"f", by decide⟩, by decide⟩

/-- C10. `make_preferred` changes separators to `/` and nothing else. -/
theorem C10_make_preferred (p : Str) :
    (makePreferred p).length = p.length ∧ makePreferred (makePreferred p) = makePreferred p ∧
    (∀ c ∈ makePreferred p, c ≠ 92) ∧
    (∀ (i : Nat) c, p[i]? = some c → (makePreferred p)[i]? = some (if IsSep c then 47 else c)) := by
  refine ⟨by simp [makePreferred], ?_, ?_, ?_⟩
  · simp only [makePreferred, List.map_map]
    apply List.map_congr_left
    intro c _
    by_cases h : c = 47 ∨ c = 92 <;> simp [h]
  · intro c hc
    simp only [makePreferred, List.mem_map] at hc
    obtain ⟨d, -, rfl⟩ := hc
    by_cases h : d = 47 ∨ d = 92
    · simp [h]
    · simp only [h, if_false]; intro h2; exact h (Or.inr h2)
  · intro i c h
    simp [makePreferred, h, IsSep]; rfl

example : parentPath b!"a\\b/c.d" = .ok b!"a\\b" ∧ filename b!"a\\b/c.d" = .ok b!"c.d" := by decide

/-! ## C11 extensions -/

/-- C11. Extension and stem of a path whose last component has a dot. `dir` is empty or ends in a
separator. -/
theorem C11_stem_extension (dir st ext : Str) (hdir : dir = [] ∨ ∃ a c, dir = a ++ [c] ∧ IsSep c)
    (hst : ∀ d ∈ st, ¬ IsSep d) (hext : ∀ d ∈ ext, ¬ IsSep d ∧ d ≠ 46) :
    stem (dir ++ st ++ 46 :: ext) = .ok st ∧ extension (dir ++ st ++ 46 :: ext) = .ok ext := by
  have hdot : findLast (· == 46) (dir ++ st ++ 46 :: ext) = some (dir ++ st).length :=
    findLast_append_cons (by simp) fun d hd => by simpa using (hext d hd).2
  have hsep : succWrap (lastSeparatorPos (dir ++ st ++ 46 :: ext)) = dir.length := by
    have hn : ∀ d ∈ st ++ 46 :: ext, ¬ IsSep d := by
      intro d hd
      rcases List.mem_append.1 hd with h | h
      · exact hst d h
      · rcases List.mem_cons.1 h with rfl | h
        · decide
        · exact (hext d h).1
    rcases hdir with rfl | ⟨a, c, rfl, hc⟩
    · rw [List.nil_append, lastSep_none hn]; rfl
    · have e : a ++ [c] ++ st ++ 46 :: ext = a ++ c :: (st ++ 46 :: ext) := by simp
      rw [e, lastSep_split hc hn]; simp [succWrap]
  constructor
  · simp only [stem, hdot, hsep]
    have h1 : (dir ++ st).length ≥ dir.length := by simp
    have h2 : (dir ++ st).length - dir.length = st.length := by simp
    rw [if_pos h1, h2, List.append_assoc]
    exact substr_append_take
  · simp only [extension, hdot]
    have := substr_append (pre := dir ++ st ++ [46]) (post := ext)
    simpa [Nat.add_assoc] using this

/-- C11. `replace_extension` on such a path: only the extension changes. -/
theorem C11_replace_extension (dir st ext e : Str) (hdir : dir = [] ∨ ∃ a c, dir = a ++ [c] ∧ IsSep c)
    (hst : ∀ d ∈ st, ¬ IsSep d) (hext : ∀ d ∈ ext, ¬ IsSep d ∧ d ≠ 46)
    (he : ∀ d ∈ e, ¬ IsSep d ∧ d ≠ 46) (hne : e ≠ []) :
    replaceExtension (dir ++ st ++ 46 :: ext) e = dir ++ st ++ 46 :: e ∧
    extension (replaceExtension (dir ++ st ++ 46 :: ext) e) = .ok e ∧
    stem (replaceExtension (dir ++ st ++ 46 :: ext) e) = .ok st ∧
    parentPath (replaceExtension (dir ++ st ++ 46 :: ext) e) = parentPath (dir ++ st ++ 46 :: ext) := by
  have hdot : findLast (· == 46) (dir ++ st ++ 46 :: ext) = some (dir ++ st).length :=
    findLast_append_cons (by simp) fun d hd => by simpa using (hext d hd).2
  have h0 : replaceExtension (dir ++ st ++ 46 :: ext) e = dir ++ st ++ 46 :: e := by
    simp only [replaceExtension, hdot]
    rw [List.take_append_of_le_length (Nat.le_refl _), List.take_of_length_le (Nat.le_refl _)]
    simp [hne]
  rw [h0]
  obtain ⟨h1, h2⟩ := C11_stem_extension dir st e hdir hst he
  refine ⟨rfl, h2, h1, ?_⟩
  have hn : ∀ x : Str, (∀ d ∈ x, ¬ IsSep d ∧ d ≠ 46) → ∀ d ∈ st ++ 46 :: x, ¬ IsSep d := by
    intro x hx d hd
    rcases List.mem_append.1 hd with h | h
    · exact hst d h
    · rcases List.mem_cons.1 h with rfl | h
      · decide
      · exact (hx d h).1
  rcases hdir with rfl | ⟨a, c, rfl, hc⟩
  · rw [List.nil_append, (C10_no_separator _ (hn e he)).1, (C10_no_separator _ (hn ext hext)).1]
  · have e1 : ∀ x : Str, a ++ [c] ++ st ++ 46 :: x = a ++ c :: (st ++ 46 :: x) := by intro x; simp
    rw [e1, e1, (C10_decompose a _ c hc (hn e he)).1, (C10_decompose a _ c hc (hn ext hext)).1]

/-- C11. Replacing by the empty extension removes the extension and its dot. -/
theorem C11_remove_extension (a ext : Str) (hext : ∀ d ∈ ext, d ≠ 46) :
    replaceExtension (a ++ 46 :: ext) [] = a := by
  have hdot : findLast (· == 46) (a ++ 46 :: ext) = some a.length :=
    findLast_append_cons (by simp) fun d hd => by simpa using hext d hd
  simp [replaceExtension, hdot]

/-- C11. A path without any dot gets the extension appended; its extension is empty and its stem is the
last component. -/
theorem C11_no_dot (p e : Str) (hp : ∀ d ∈ p, d ≠ 46) (he : e ≠ []) :
    replaceExtension p e = p ++ 46 :: e ∧ extension p = .ok [] := by
  have h : findLast (· == 46) p = none := findLast_eq_none.2 fun d hd => by simpa using hp d hd
  simp [replaceExtension, extension, h, he]

/-- C11, partial. The full claim ("only the last component changes") fails when the last dot is in a
folder name: the code then cuts the path at that dot. This is the exact result for every path. -/
theorem C11_replace_extension_partial (a b e : Str) (hb : ∀ d ∈ b, d ≠ 46) (he : e ≠ []) :
    replaceExtension (a ++ 46 :: b) e = a ++ 46 :: e := by
  have hdot : findLast (· == 46) (a ++ 46 :: b) = some a.length :=
    findLast_append_cons (by simp) fun d hd => by simpa using hb d hd
  simp [replaceExtension, hdot, he]

/-- C11. Refutation of the full claim: the folder is damaged and the file name lost. -/
theorem C11_dotted_folder_refuted :
    replaceExtension b!"v1.2/run" b!"txt" = b!"v1.txt" ∧ extension b!"v1.2/run" = .ok b!"2/run" := by
  decide

example : stem b!"a.b/c.tar.gz" = .ok b!"c.tar" ∧ extension b!"a.b/c.tar.gz" = .ok b!"gz" := by decide

/-! ## C12 identifiers -/

/-- C12. What `tidy_identifier` returns, in its three cases. -/
theorem C12_tidy_cases (id : Str) :
    (∀ a b, id = a ++ 58 :: b → (∀ d ∈ b, d ≠ 58) →
      ∃ r, tidyIdentifier id = .ok r ∧ IsTrim (· = 95) b r) ∧
    ((∀ d ∈ id, d ≠ 58) → ∀ b, id = 109 :: 95 :: b →
      ∃ r, tidyIdentifier id = .ok r ∧ IsTrimRight (· = 95) b r) ∧
    ((∀ d ∈ id, d ≠ 58) → (∀ b, id ≠ 109 :: 95 :: b) →
      ∃ r, tidyIdentifier id = .ok r ∧ IsTrim (· = 95) id r) := by
  have hset : (fun c : Byte => c ∈ cstr b!"_") = (· = 95) := by
    funext c
    have : cstr b!"_" = [95] := by decide
    simp [this]
  refine ⟨?_, ?_, ?_⟩
  · rintro a b rfl hb
    have h : findLast (· == 58) (a ++ 58 :: b) = some a.length :=
      findLast_append_cons (by simp) fun d hd => by simpa using hb d hd
    obtain ⟨r, h1, h2⟩ := trimStr_isTrim b b!"_"
    rw [hset] at h2
    refine ⟨r, ?_, h2⟩
    have h3 : substr (a ++ 58 :: b) (a.length + 1) none = .ok b := by
      have := substr_append (pre := a ++ [58]) (post := b)
      simpa using this
    simp [tidyIdentifier, h, h3, h1]
  · rintro hn b rfl
    have h : findLast (· == 58) (109 :: 95 :: b) = none :=
      findLast_eq_none.2 fun d hd => by simpa using hn d hd
    obtain ⟨r, h1, h2⟩ := trimRightStr_isTrim b b!"_"
    rw [hset] at h2
    refine ⟨r, ?_, h2⟩
    have h3 : strBeginsWith (109 :: 95 :: b) b!"m_" = true := (C06_begins_with _ _).2 ⟨b, rfl⟩
    have h4 : substr (109 :: 95 :: b) 2 none = .ok b := by
      have := substr_append (pre := [109, 95]) (post := b)
      simpa using this
    simp only [tidyIdentifier, h, h3, if_true, h4, Res.bind_ok, h1]
  · intro hn hm
    have h : findLast (· == 58) id = none :=
      findLast_eq_none.2 fun d hd => by simpa using hn d hd
    obtain ⟨r, h1, h2⟩ := trimStr_isTrim id b!"_"
    rw [hset] at h2
    refine ⟨r, ?_, h2⟩
    have h3 : strBeginsWith id b!"m_" = false := by
      rw [Bool.eq_false_iff]
      intro h4
      obtain ⟨b, hb⟩ := (C06_begins_with _ _).1 h4
      exact hm b hb.symm
    simp only [tidyIdentifier, h, h3, Bool.false_eq_true, if_false, h1]

/-- C12. Total; the result is a contiguous part of the input, has no `:` and no trailing `_`; unless the
input starts with `m_` and has no `:`, it has no leading `_` either. -/
theorem C12_tidy (id : Str) : ∃ r, tidyIdentifier id = .ok r ∧ r <:+: id ∧ (∀ d ∈ r, d ≠ 58) ∧
    r.getLast? ≠ some 95 ∧ (r.head? = some 95 → ∃ b, id = 109 :: 95 :: b ∧ ∀ d ∈ id, d ≠ 58) := by
  obtain ⟨h1, h2, h3⟩ := C12_tidy_cases id
  by_cases hn : ∀ d ∈ id, d ≠ 58
  · by_cases hm : ∃ b, id = 109 :: 95 :: b
    · obtain ⟨b, hb⟩ := hm
      obtain ⟨r, hr, t, ht, -, hl⟩ := h2 hn b hb
      have hinf : r <:+: id := ⟨[109, 95], t, by simp [hb, ht]⟩
      refine ⟨r, hr, hinf, fun d hd => hn d (hinf.subset hd), ?_, fun _ => ⟨b, hb, hn⟩⟩
      intro h; exact hl 95 h rfl
    · have hm' : ∀ b, id ≠ 109 :: 95 :: b := fun b hb => hm ⟨b, hb⟩
      obtain ⟨r, hr, a, b, hab, -, -, hh, hl⟩ := h3 hn hm'
      have hinf : r <:+: id := ⟨a, b, hab.symm⟩
      refine ⟨r, hr, hinf, fun d hd => hn d (hinf.subset hd), ?_, fun h => absurd rfl (hh 95 h)⟩
      intro h; exact hl 95 h rfl
  · obtain ⟨a, b, hid, hb⟩ : ∃ a b, id = a ++ 58 :: b ∧ ∀ d ∈ b, d ≠ 58 := by
      cases h : findLast (· == 58) id with
      | none => exact absurd (fun d hd => by simpa using findLast_eq_none.1 h d hd) hn
      | some i =>
        obtain ⟨a, c, b, e1, -, e2, e3⟩ := findLast_eq_some.1 h
        have : c = 58 := by simpa using e2
        subst this
        exact ⟨a, b, e1, fun d hd => by simpa using e3 d hd⟩
    obtain ⟨r, hr, x, y, hxy, -, -, hh, hl⟩ := h1 a b hid hb
    have hinf : r <:+: id := ⟨a ++ 58 :: x, y, by simp [hid, hxy]⟩
    refine ⟨r, hr, hinf, fun d hd => hb d (by rw [hxy]; simp [hd]), ?_, fun h => absurd rfl (hh 95 h)⟩
    intro h; exact hl 95 h rfl

example : tidyIdentifier b!"m_value_" = .ok b!"value" := by decide
example : tidyIdentifier b!"ns::__x_" = .ok b!"x" := by decide

end Flut
