import Verif.Props.Strings
import Verif.Props.CharStream
import Verif.Props.PropNode
import Verif.Props.Scalar
import Verif.Props.Numeric
import Verif.Props.Rotation
import Verif.Props.Data
import Verif.Props.FileSystem
import Verif.Props.Ini
import Verif.Props.Profiler

/-! # Further theorems for properties stated elsewhere: C06, C14, C20, C22, C24, C29, C34, C45, C54, C55, C63, C73,
C76 -/

namespace Flut

open Spec Fs

/-! ## C06 -/

/-- `in_str(s, t, p)` is the first position from `p` on at which `t` occurs, or nothing if there is none. -/
theorem C06_in_str (s t : Str) (p : Nat) :
    (∀ i, inStr s t p = some i ↔ p ≤ i ∧ OccursAt t s i ∧ ∀ j, p ≤ j → OccursAt t s j → i ≤ j) ∧
    (inStr s t p = none ↔ ∀ j, p ≤ j → ¬ OccursAt t s j) := by
  have key : ∀ i, inStr s t p = some i ↔ p ≤ i ∧ OccursAt t s i ∧ ∀ j, p ≤ j → OccursAt t s j → i ≤ j := by
    intro i
    unfold inStr
    split
    · rename_i hp
      have shift : ∀ k, OccursAt t (s.drop p) k ↔ OccursAt t s (k + p) := by
        intro k
        constructor
        · rintro ⟨a, b, h, rfl⟩
          refine ⟨s.take p ++ a, b, ?_, by simp; omega⟩
          rw [List.append_assoc, List.append_assoc, ← List.append_assoc a, ← h, List.take_append_drop]
        · rintro ⟨a, b, h, hk⟩
          refine ⟨a.drop p, b, ?_, by simp; omega⟩
          rw [h, List.append_assoc, List.drop_append_of_le_length (by omega), List.append_assoc]
      rw [Option.map_eq_some_iff]
      constructor
      · rintro ⟨k, hk, rfl⟩
        obtain ⟨h1, h2⟩ := findSub_eq_some.1 hk
        refine ⟨by omega, (shift k).1 h1, ?_⟩
        intro j hj ho
        have := h2 (j - p) ((shift _).2 (by rwa [Nat.sub_add_cancel hj]))
        omega
      · rintro ⟨h1, h2, h3⟩
        refine ⟨i - p, findSub_eq_some.2 ⟨(shift _).2 (by rwa [Nat.sub_add_cancel h1]), ?_⟩, by omega⟩
        intro j hj
        have := h3 (j + p) (by omega) ((shift j).1 hj)
        omega
    · rename_i hp
      constructor
      · intro h; cases h
      · rintro ⟨h1, ⟨a, b, h, rfl⟩, _⟩
        have := congrArg List.length h
        simp at this
        omega
  refine ⟨key, ?_⟩
  constructor
  · intro h j
    induction j using Nat.strong_induction_on with
    | _ j ih =>
      intro hj ho
      have := (key j).2 ⟨hj, ho, fun k hk hok => by
        by_contra hlt
        exact ih k (by omega) hk hok⟩
      rw [h] at this
      cases this
  · intro h
    cases e : inStr s t p with
    | none => rfl
    | some i => exact absurd ((key i).1 e).2.1 (h i ((key i).1 e).1)

example : inStr b!"abcabc" b!"bc" 0 = some 1 ∧ inStr b!"abcabc" b!"bc" 2 = some 4 ∧ inStr b!"abc" b!"x" 0 = none ∧
    inStr b!"abc" b!"" 4 = none := by decide

/-! ## C14 -/

/-- `peekc` is the character that `getc` takes next. -/
theorem C14_peek (s s' : CharStream) (c : Byte) (h : s.getc = .ok (c, s')) : s.peekc = c ∧ s.rest = c :: s'.rest := by
  unfold CharStream.getc at h
  split at h
  · cases h
  · rename_i c' cs e
    simp only [Res.ok.injEq, Prod.mk.injEq] at h
    obtain ⟨rfl, rfl⟩ := h
    have : ∀ s : CharStream, s.testEof.rest = s.rest := by
      intro s; unfold CharStream.testEof; split <;> rfl
    simp [CharStream.peekc, e, this]

example : (CharStream.ofString b!"xy").getc = .ok (c!"x", CharStream.ofString b!"y") := by decide

/-! ## C20, C22: property nodes -/

/-- `try_get_child(key, default)` returns the first child with that key, or else the default node. -/
theorem C20_try_get_child_or (k : Str) (dflt t : PN) : ∃ r t', PN.tryGetChildOr k dflt t = .ok (r, t') ∧ SameTree t' t ∧
    SameTree r ((firstChild k (kids t)).getD dflt) := by
  obtain ⟨a, val, cs⟩ := t
  rcases PN.findIdx_cases k cs with ⟨h1, h2⟩ | ⟨pre, n, post, rfl, h1, h2⟩
  · refine ⟨dflt, .mk true val cs, by simp [PN.tryGetChildOr, PN.tryGetChild, h1], ?_, ?_⟩
    · rw [PN.sameTree_iff]; rfl
    · rw [kids, PN.firstChild_none.2 h2]; exact (PN.sameTree_iff _ _).2 rfl
  · refine ⟨n.access, .mk true val (pre ++ (k, n.access) :: post), ?_, ?_, ?_⟩
    · simp [PN.tryGetChildOr, PN.tryGetChild, h2, PN.modifyAt_at, PN.children]
    · exact PN.sameTree_symm (PN.moreAccessed_sameTree (PN.moreAccessed_at pre k post (PN.moreAccessed_access n)))
    · rw [kids, PN.firstChild_at h1]
      exact PN.sameTree_symm (PN.moreAccessed_sameTree (PN.moreAccessed_access n))

example : (PN.tryGetChildOr b!"b" (PN.leaf b!"0") (.mk false [] [(b!"a", PN.leaf b!"1")])) =
    .ok (PN.leaf b!"0", .mk true [] [(b!"a", PN.leaf b!"1")]) := by rfl

/-- `erase` removes the child at a position and keeps the others in order. -/
theorem C22_erase (i : Nat) (t : PN) (h : i < (kids t).length) : ∃ t', PN.eraseAt i t = .ok t' ∧ t'.value = t.value ∧
    kids t' = (kids t).take i ++ (kids t).drop (i + 1) := by
  obtain ⟨a, val, cs⟩ := t
  refine ⟨.mk a val (cs.eraseIdx i), ?_, rfl, List.eraseIdx_eq_take_drop_succ cs i⟩
  unfold PN.eraseAt
  exact if_pos h

/-- `insert` puts copies of the given children at a position and keeps the others in order. -/
theorem C22_insert (i : Nat) (new : List (Str × PN)) (t : PN) (h : i ≤ (kids t).length) :
    ∃ t' new', PN.insertAt i new t = .ok t' ∧ t'.value = t.value ∧
      kids t' = (kids t).take i ++ new' ++ (kids t).drop i ∧
      List.Forall₂ (fun x y => x.1 = y.1 ∧ SameTree x.2 y.2) new' new := by
  obtain ⟨a, val, cs⟩ := t
  refine ⟨.mk a val (cs.take i ++ PN.clearAll new ++ cs.drop i), PN.clearAll new, ?_, rfl, rfl, ?_⟩
  · unfold PN.insertAt
    exact if_pos h
  · induction new with
    | nil => exact .nil
    | cons x xs ih =>
      obtain ⟨k, n⟩ := x
      exact .cons ⟨rfl, PN.sameTree_clear n⟩ ih

example : PN.insertAt 1 [(b!"b", PN.leaf b!"2")] (.mk false [] [(b!"a", PN.leaf b!"1"), (b!"c", PN.leaf b!"3")]) =
    .ok (.mk false [] [(b!"a", PN.leaf b!"1"), (b!"b", PN.leaf b!"2"), (b!"c", PN.leaf b!"3")]) ∧
    PN.eraseAt 1 (.mk false [] [(b!"a", PN.leaf b!"1"), (b!"b", PN.leaf b!"2"), (b!"c", PN.leaf b!"3")]) =
    .ok (.mk false [] [(b!"a", PN.leaf b!"1"), (b!"c", PN.leaf b!"3")]) := ⟨rfl, rfl⟩

/-! ## C24 -/

mutual
theorem readNode_fresh (n : Nat) (s s' : CharStream) (t : PN) (h : readNode n s = .ok (t, s')) :
    ∀ f ∈ flags t, f = false := by
  cases n with
  | zero => cases h
  | succ n =>
    unfold readNode at h
    obtain ⟨⟨t1, s1⟩, _, h⟩ := Res.bind_eq_ok.1 h
    dsimp only at h
    split at h
    · obtain ⟨⟨v, s2⟩, _, h⟩ := Res.bind_eq_ok.1 h
      simp only [Res.ok.injEq, Prod.mk.injEq] at h
      rw [← h.1]
      simp [flags, flagsAll]
    · split at h
      · obtain ⟨⟨cs, s2⟩, hc, h⟩ := Res.bind_eq_ok.1 h
        simp only [Res.ok.injEq, Prod.mk.injEq] at h
        rw [← h.1]
        have := readChildren_fresh n _ _ _ _ hc
        intro f hf
        simp only [flags, List.mem_cons] at hf
        rcases hf with rfl | hf
        · rfl
        · exact this f hf
      · simp only [Res.ok.injEq, Prod.mk.injEq] at h
        rw [← h.1]
        simp [flags, flagsAll]
theorem readChildren_fresh (n : Nat) (s s' : CharStream) (t : Str) (cs : List (Str × PN))
    (h : readChildren n s t = .ok (cs, s')) : ∀ f ∈ flagsAll cs, f = false := by
  cases n with
  | zero => cases h
  | succ n =>
    unfold readChildren at h
    split at h
    · obtain ⟨⟨t1, s1⟩, _, h⟩ := Res.bind_eq_ok.1 h
      obtain ⟨v, _, h⟩ := Res.bind_eq_ok.1 h
      split at h
      · obtain ⟨⟨nd, s2⟩, h1, h⟩ := Res.bind_eq_ok.1 h
        obtain ⟨⟨rest, s3⟩, h2, h⟩ := Res.bind_eq_ok.1 h
        simp only [Res.ok.injEq, Prod.mk.injEq] at h
        rw [← h.1]
        intro f hf
        simp only [flagsAll, List.mem_append] at hf
        rcases hf with hf | hf
        · exact readNode_fresh n _ _ _ h1 f hf
        · exact readChildren_fresh n _ _ _ _ h2 f hf
      · split at h
        · cases h
        · exact readChildren_fresh n _ _ _ _ h
    · simp only [Res.ok.injEq, Prod.mk.injEq] at h
      rw [← h.1]
      simp [flagsAll]
end

theorem parseLoop_fresh (n : Nat) (s : CharStream) (t : Str) (cs : List (Str × PN)) (h : parseLoop n s t = .ok cs) :
    ∀ f ∈ flagsAll cs, f = false := by
  induction n generalizing s t cs with
  | zero => cases h
  | succ n ih =>
    unfold parseLoop at h
    obtain ⟨v, _, h⟩ := Res.bind_eq_ok.1 h
    split at h
    · obtain ⟨⟨nd, s1⟩, h1, h⟩ := Res.bind_eq_ok.1 h
      obtain ⟨⟨t', s2⟩, _, h⟩ := Res.bind_eq_ok.1 h
      obtain ⟨rest, h2, h⟩ := Res.bind_eq_ok.1 h
      simp only [Res.ok.injEq] at h
      rw [← h]
      intro f hf
      simp only [flagsAll, List.mem_append] at hf
      rcases hf with hf | hf
      · exact readNode_fresh _ _ _ _ h1 f hf
      · exact ih _ _ _ h2 f hf
    · simp only [Res.ok.injEq] at h
      rw [← h]
      simp [flagsAll]

/-- Nothing of a tree that was just parsed counts as accessed. -/
theorem C24_parsed (text : Str) (n : PN) (h : parseProp text = .ok n) : PN.countUnaccessed n = (flags n).length := by
  unfold parseProp parseStream at h
  obtain ⟨⟨t, s1⟩, _, h⟩ := Res.bind_eq_ok.1 h
  obtain ⟨cs, h1, h⟩ := Res.bind_eq_ok.1 h
  simp only [Res.ok.injEq] at h
  rw [← h, C24_count]
  refine List.count_eq_length.2 fun f hf => ?_
  simp only [flags, List.mem_cons] at hf
  rcases hf with rfl | hf
  · rfl
  · exact (parseLoop_fresh _ _ _ _ h1 f hf).symm

example : (parseProp b!"a = 1\nb { c = 2; d }" >>= fun n => .ok (PN.countUnaccessed n)) = .ok 5 := by decide +kernel

/-- The nodes that values are written to count as not accessed either. -/
theorem C24_written {α : Type} (g : α → PN) (toStr : α → Str) (x : α) (xs : List α) :
    PN.countUnaccessed (PN.toStrNode toStr x) = (flags (PN.toStrNode toStr x)).length ∧
    PN.countUnaccessed (PN.toVec g xs) = (flags (PN.toVec g xs)).length := by
  refine ⟨rfl, ?_⟩
  rw [C24_count]
  refine List.count_eq_length.2 fun f hf => ?_
  have key : ∀ (xs : List α) (i : Nat), ∀ f ∈ flagsAll (PN.toVecFrom g i xs), f = false := by
    intro xs
    induction xs with
    | nil => intro i; simp [PN.toVecFrom, flagsAll]
    | cons y ys ih =>
      intro i f hf
      simp only [PN.toVecFrom, flagsAll, List.mem_append, PN.flags_clear] at hf
      rcases hf with hf | hf
      · obtain ⟨_, _, rfl⟩ := List.mem_map.1 hf
        rfl
      · exact ih _ f hf
  simp only [PN.toVec, flags, List.mem_cons] at hf
  rcases hf with rfl | hf
  · rfl
  · exact (key xs 0 f hf).symm

example : PN.countUnaccessed (PN.toVec (PN.toStrNode fun x : Str => x) [b!"a", b!"b"]) = 3 := by decide +kernel

/-! ## C29 -/

/-- An ini document that is saved to a file is loaded back from it. -/
theorem C29_file_round_trip (fs : Fs) (p : Str) (n : PN) (main groups : List (Str × PN)) (hn : IniDoc n main groups)
    (l : Loc) (fs1 : Fs) (hw : fs.openWrite p = some (l, fs1)) (hr : fs.readable l = true) :
    ∃ m, (fs.saveIniFile n p).loadIniFile p = .ok m ∧ SameTree m n := by
  obtain ⟨m, h1, h2⟩ := C29_round_trip n main groups hn
  refine ⟨m, ?_, h2⟩
  obtain ⟨e1, e2, e3, e4, _⟩ := openWrite_some hw
  unfold Fs.saveIniFile
  rw [hw]
  dsimp only
  rw [e2, put_put, (C52_present_partial (fs.put l (.file (saveIni n))) p (saveIni n) l (stat_put_file e4 e1 e3)
    (by rw [locate_put_file e4]; exact e1) hr none).2.2, h1]

example : (Fs.empty.saveIniFile (.mk false [] [(b!"a", .mk false b!"1" [])]) b!"x.ini").stat b!"x.ini" =
    some (.file b!"a=1\n") := by decide +kernel

/-! ## C34 -/

/-- `buf[channel] = x` is a write to the newest frame: the value reads back, and every other retained cell keeps the value
last written to it. -/
theorem C34_write_last {α L : Type} [DecidableEq L] (dl : L) (dv : α) (n ch : Nat) (ops : List (FrameBuf.Op α)) (c : Nat)
    (x : α) (h : FrameSpec.Legal n ch ops) (hsz : FrameSpec.frames ops < 2 ^ 64) (hn : 0 < n)
    (hf : 0 < FrameSpec.frames ops) (hc : c < ch) :
    ∃ b b' : FrameBuf α L, FrameBuf.runAll ops (FrameBuf.new dl dv ch n) = .ok b ∧ b.putLast c x = .ok b' ∧
      b'.last c = .ok x ∧
      ∀ f c' v, FrameSpec.Retained n (FrameSpec.frames ops) f → c' < ch → (f + 1 = FrameSpec.frames ops → c' ≠ c) →
        FrameSpec.written f c' ops = some v → b'.get f c' = .ok v := by
  obtain ⟨b, h1, r⟩ := FrameBuf.rep_runAll ops (FrameBuf.rep_new (L := L) dl dv ch n) (by simpa using h)
  simp only [List.nil_append] at r
  have hret : FrameSpec.Retained n (FrameSpec.frames ops) (FrameSpec.frames ops - 1) := by
    unfold FrameSpec.Retained; omega
  have e : subWrap b.frames 1 = FrameSpec.frames ops - 1 := by
    rw [r.frames]; unfold subWrap; omega
  obtain ⟨b', h2, r'⟩ := FrameBuf.rep_run r (.put (FrameSpec.frames ops - 1) c x) (by
    intro f c' y he
    simp only [FrameBuf.Op.put.injEq] at he
    obtain ⟨rfl, rfl, rfl⟩ := he
    exact ⟨hret, hc⟩)
  have hfr : FrameSpec.frames (ops ++ [.put (FrameSpec.frames ops - 1) c x]) = FrameSpec.frames ops := by
    rw [FrameBuf.frames_append]; simp [FrameSpec.frames]
  have e' : subWrap b'.frames 1 = FrameSpec.frames ops - 1 := by
    rw [r'.frames, hfr]; unfold subWrap; omega
  refine ⟨b, b', h1, ?_, ?_, ?_⟩
  · unfold FrameBuf.putLast
    rw [e]
    exact h2
  · unfold FrameBuf.last
    rw [e']
    refine r'.get _ _ _ (by rw [hfr]; exact hret) hc ?_
    rw [FrameBuf.written_append]
    simp [FrameSpec.written]
  · intro f c' v hr hc' hne hw
    refine r'.get _ _ _ (by rw [hfr]; exact hr) hc' ?_
    rw [FrameBuf.written_append, hw]
    have : ¬ (FrameSpec.frames ops - 1 = f ∧ c = c') := by
      rintro ⟨rfl, rfl⟩
      exact hne (by omega) rfl
    simp [FrameSpec.written, this]

example : (FrameBuf.runAll [.addFrame, .put 0 0 10, .addFrame] (FrameBuf.new b!"" 0 2 2) >>= FrameBuf.putLast 1 7 >>=
    FrameBuf.last 1) = .ok 7 := by decide +kernel

/-! ## C45 -/

/-- After `start_first_measure` the stopwatch measures as if it had been made at that moment. -/
theorem C45_start_first (t0 t : Int) (ms : List (Str × Int × Int)) :
    Stopwatch.addAll ms ((Stopwatch.new t0).startFirst t) = Stopwatch.addAll ms (Stopwatch.new t) := rfl

example : (Stopwatch.addAll [(b!"a", 7, 8)] ((Stopwatch.new 0).startFirst 5)).measures = [(b!"a", 2)] := by decide

/-! ## C54, C55: scalars -/

section Scalars
variable {K : Type} [Field K] [LinearOrder K] [IsStrictOrderedRing K]

omit [Field K] [IsStrictOrderedRing K] in
/-- `is_between` is membership of the closed interval. -/
theorem C54_between (v min max : K) : isBetween v min max = true ↔ v ∈ Set.Icc min max := by
  simp [isBetween, Set.mem_Icc]

omit [IsStrictOrderedRing K] in
/-- `set_if_smaller` and `set_if_bigger` leave the smaller and the bigger of the two values. -/
theorem C54_set_if (v o : K) : setIfSmaller v o = min v o ∧ setIfBigger v o = max v o :=
  ⟨setIfSmaller_eq v o, setIfBigger_eq v o⟩

/-- `sign` is one or minus one, and times the value it gives the absolute value. -/
theorem C54_sign (v : K) : (signOf v = 1 ∨ signOf v = -1) ∧ signOf v * v = |v| ∧ (signOf v = 1 ↔ 0 ≤ v) := by
  unfold signOf
  split
  · rename_i h
    exact ⟨.inl rfl, by rw [one_mul, abs_of_nonneg h], by simp [h]⟩
  · rename_i h
    refine ⟨.inr rfl, by rw [neg_one_mul, abs_of_neg (not_le.1 h)], ?_⟩
    constructor
    · intro e; linarith
    · intro e; exact absurd e h

/-- Soft clamping by bounds stays strictly inside, is increasing, and keeps values away from the boundary. -/
theorem C55_bounds (b : Bounds K) (v s : K) (h : b.lower < b.upper) (hs : 0 < s) (hs2 : s ≤ 1 / 2) :
    b.isWithin (b.softClampIn v s) = true ∧
    (∀ u, v < u → b.softClampIn v s < b.softClampIn u s) ∧
    (s * b.range ≤ v - b.lower → s * b.range ≤ b.upper - v → b.softClampIn v s = v) := by
  obtain ⟨⟨h1, h2⟩, h3⟩ := C55_inside v b.lower b.upper s h hs hs2
  refine ⟨?_, fun u hu => C55_increasing v u b.lower b.upper s h hs hs2 hu, h3⟩
  simp only [Bounds.isWithin, Bounds.softClampIn, ge_iff_le, Bool.and_eq_true]
  exact ⟨decide_eq_true h1.le, decide_eq_true h2.le⟩

example : (⟨0, 10⟩ : Bounds ℚ).softClampIn 20 (1 / 10) = 10 - 1 / 12 := by
  unfold Bounds.softClampIn softClamp limitTransfer; norm_num

example : isBetween (3 : ℚ) 1 3 = true ∧ isBetween (4 : ℚ) 1 3 = false ∧ signOf (-2 : ℚ) = -1 := by decide +kernel

omit [Field K] [IsStrictOrderedRing K] in
/-- A box made from a point contains just that point. -/
theorem C63_point (p q : Vec3 K) : InBox q (BBox.ofPoint p) ↔ q = p := inOp_iff q (.point p) |>.symm

omit [LinearOrder K] [IsStrictOrderedRing K] in
/-- The squared length of a vec4 counts all four components. -/
theorem C73_length (v : Vec4 K) : v.sqLength = v.x ^ 2 + v.y ^ 2 + v.z ^ 2 + v.w ^ 2 := by
  unfold Vec4.sqLength; ring

/-- The angle operators are those of the angle's value, whatever unit it is looked at in. -/
theorem C76_values (pi : K) (hpi : 0 < pi) {u : AngleUnit} (a b : Angle u K) (s : K) :
    (a.add b).radValue pi = a.radValue pi + b.radValue pi ∧ (a.sub b).radValue pi = a.radValue pi - b.radValue pi ∧
    a.neg.radValue pi = -a.radValue pi ∧ (a.smul s).radValue pi = s * a.radValue pi ∧
    (a.sdiv s).radValue pi = a.radValue pi / s ∧ (a.lt b = true ↔ a.radValue pi < b.radValue pi) ∧
    (a.eq b = true ↔ a.radValue pi = b.radValue pi) := by
  obtain ⟨c, hc, e⟩ := convertAngle_scale pi hpi u .radians
  have hne := hc.ne'
  unfold Angle.radValue
  simp only [e, Angle.add, Angle.sub, Angle.neg, Angle.smul, Angle.sdiv, Angle.lt, Angle.eq, decide_eq_true_eq]
  refine ⟨by ring, by ring, by ring, by ring, by ring, ?_, ?_⟩
  · exact (mul_lt_mul_iff_right₀ hc).symm
  · exact (mul_right_inj' hne).symm

example : ((⟨180⟩ : Angle .degrees ℚ).sub ⟨90⟩).radValue (22 / 7) = 11 / 7 := by decide +kernel

end Scalars

end Flut
