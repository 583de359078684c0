import Verif.Proofs.FloatBox
import Verif.Proofs.FloatLerp
import Verif.Props.FloatClamp

/-! # C121: bounding boxes of floating-point numbers, finite or not -/

namespace Flut

open Spec FloatMath

/-- A point lies in a box; a coordinate or bound that is not a number is never in order. -/
def InFloatBox (p : Vec3 Flt) (b : BBox Flt) : Prop :=
  AtMost b.lower.x p.x ∧ AtMost p.x b.upper.x ∧ AtMost b.lower.y p.y ∧ AtMost p.y b.upper.y ∧ AtMost b.lower.z p.z ∧ AtMost p.z b.upper.z

/-- All six bounds are numbers. -/
def HasBounds (b : BBox Flt) : Prop :=
  IsNumber b.lower.x ∧ IsNumber b.lower.y ∧ IsNumber b.lower.z ∧ IsNumber b.upper.x ∧ IsNumber b.upper.y ∧ IsNumber b.upper.z

/-- What is added, as a box. -/
def opBox : BBox.Op Flt → BBox Flt
  | .point p => ⟨p, p⟩
  | .box b => b

/-- The bounds after a sequence of additions, one by one. -/
theorem boxAddAll_eq (b : BBox Flt) (ops : List (BBox.Op Flt)) : boxAddAll b ops =
    ⟨⟨(ops.map fun o => (opBox o).lower.x).foldl FloatMath.setIfSmaller b.lower.x,
      (ops.map fun o => (opBox o).lower.y).foldl FloatMath.setIfSmaller b.lower.y,
      (ops.map fun o => (opBox o).lower.z).foldl FloatMath.setIfSmaller b.lower.z⟩,
     ⟨(ops.map fun o => (opBox o).upper.x).foldl FloatMath.setIfBigger b.upper.x,
      (ops.map fun o => (opBox o).upper.y).foldl FloatMath.setIfBigger b.upper.y,
      (ops.map fun o => (opBox o).upper.z).foldl FloatMath.setIfBigger b.upper.z⟩⟩ := by
  unfold boxAddAll
  induction ops generalizing b with
  | nil => rfl
  | cons o ops ih =>
    rw [List.foldl_cons, ih]
    cases o <;> rfl

theorem fold_atMost {a : Flt} (ha : IsNumber a) (xs : List Flt) :
    AtMost (xs.foldl FloatMath.setIfSmaller a) a ∧ ∀ x ∈ xs, IsNumber x → AtMost (xs.foldl FloatMath.setIfSmaller a) x := by
  obtain ⟨p, hp⟩ := ha
  obtain ⟨m, h1, h2, h3⟩ := smaller_picks.fold_le xs hp
  exact ⟨⟨m, p, h1, hp, h2⟩, fun x hx ⟨q, hq⟩ => ⟨m, q, h1, hq, h3 x hx q hq⟩⟩

theorem fold_atLeast {a : Flt} (ha : IsNumber a) (xs : List Flt) :
    AtMost a (xs.foldl FloatMath.setIfBigger a) ∧ ∀ x ∈ xs, IsNumber x → AtMost x (xs.foldl FloatMath.setIfBigger a) := by
  obtain ⟨p, hp⟩ := ha
  obtain ⟨m, h1, h2, h3⟩ := bigger_picks.fold_le xs (dualPos_some.2 hp)
  exact ⟨⟨p, OrderDual.ofDual m, hp, dualPos_some.1 h1, h2⟩,
    fun x hx ⟨q, hq⟩ => ⟨q, OrderDual.ofDual m, hq, dualPos_some.1 h1, h3 x hx _ (dualPos_some.2 hq)⟩⟩

theorem Spec.AtMost.number {a b : Flt} (h : AtMost a b) : IsNumber a ∧ IsNumber b := by
  obtain ⟨x, y, h1, h2, -⟩ := h
  exact ⟨⟨x, h1⟩, ⟨y, h2⟩⟩

theorem Spec.AtMost.tr {a b c : Flt} (h : AtMost a b) (h' : AtMost b c) : AtMost a c := by
  obtain ⟨x, y, h1, h2, h3⟩ := h
  obtain ⟨y', z, k1, k2, k3⟩ := h'
  rw [h2] at k1
  cases k1
  exact ⟨x, z, h1, k2, h3.trans k3⟩

/-- C121. A box whose bounds are numbers, finite or infinite, keeps all its points, and contains every point and every point of every box
that is added. -/
theorem C121_contains (b : BBox Flt) (hb : HasBounds b) (ops : List (BBox.Op Flt)) :
    HasBounds (boxAddAll b ops) ∧ (∀ p, InFloatBox p b → InFloatBox p (boxAddAll b ops)) ∧
      ∀ o ∈ ops, ∀ p, InFloatBox p (opBox o) → InFloatBox p (boxAddAll b ops) := by
  obtain ⟨h1, h2, h3, h4, h5, h6⟩ := hb
  rw [boxAddAll_eq]
  have l1 := fold_atMost h1 (ops.map fun o => (opBox o).lower.x)
  have l2 := fold_atMost h2 (ops.map fun o => (opBox o).lower.y)
  have l3 := fold_atMost h3 (ops.map fun o => (opBox o).lower.z)
  have l4 := fold_atLeast h4 (ops.map fun o => (opBox o).upper.x)
  have l5 := fold_atLeast h5 (ops.map fun o => (opBox o).upper.y)
  have l6 := fold_atLeast h6 (ops.map fun o => (opBox o).upper.z)
  refine ⟨⟨l1.1.number.1, l2.1.number.1, l3.1.number.1, l4.1.number.2, l5.1.number.2, l6.1.number.2⟩, ?_, ?_⟩
  · rintro p ⟨k1, k2, k3, k4, k5, k6⟩
    exact ⟨l1.1.tr k1, k2.tr l4.1, l2.1.tr k3, k4.tr l5.1, l3.1.tr k5, k6.tr l6.1⟩
  · rintro o ho p ⟨k1, k2, k3, k4, k5, k6⟩
    exact ⟨(l1.2 _ (List.mem_map.2 ⟨o, ho, rfl⟩) k1.number.1).tr k1, k2.tr (l4.2 _ (List.mem_map.2 ⟨o, ho, rfl⟩) k2.number.2),
      (l2.2 _ (List.mem_map.2 ⟨o, ho, rfl⟩) k3.number.1).tr k3, k4.tr (l5.2 _ (List.mem_map.2 ⟨o, ho, rfl⟩) k4.number.2),
      (l3.2 _ (List.mem_map.2 ⟨o, ho, rfl⟩) k5.number.1).tr k5, k6.tr (l6.2 _ (List.mem_map.2 ⟨o, ho, rfl⟩) k6.number.2)⟩

theorem stands_extreme {f : Fmt} (hf : f = .double ∨ f = .single) {x : Flt} {q : ℚ} (h : Stands f x q) :
    (f.maxVal ≤ q → x = .fin false f.maxVal) ∧ (q ≤ -f.maxVal → x = .fin true f.maxVal) := by
  have hM : 0 < f.maxVal := by rcases hf with rfl | rfl <;> norm_num [Fmt.maxVal, Fmt.double, Fmt.single]
  obtain ⟨hi, hp⟩ := h
  rcases x with ⟨s, v⟩ | s | s
  · obtain ⟨i1, i2, -⟩ := hi
    have e : (if s then -v else v) = q := by simpa [Flt.pos] using hp
    subst e
    cases s with
    | false =>
      simp only [Bool.false_eq_true, if_false]
      exact ⟨fun h => by rw [le_antisymm i2 h], fun h => by linarith⟩
    | true =>
      simp only [if_true]
      exact ⟨fun h => by linarith, fun h => by rw [le_antisymm i2 (by linarith)]⟩
  · cases s <;> simp [Flt.pos] at hp
  · simp [Flt.pos] at hp

/-- The lower bound after adding finite numbers of the format to the greatest one. -/
theorem fold_max_mem {f : Fmt} (hf : f = .double ∨ f = .single) {xs : List Flt} (hne : xs ≠ []) (h : ∀ x ∈ xs, ∃ q, Stands f x q) :
    xs.foldl FloatMath.setIfSmaller (.fin false f.maxVal) ∈ xs := by
  rcases smaller_picks.fold_mem (.fin false f.maxVal) xs with e | e
  · obtain ⟨x, hx⟩ := List.exists_mem_of_ne_nil xs hne
    obtain ⟨q, hq⟩ := h x hx
    obtain ⟨m, h1, -, h3⟩ := smaller_picks.fold_le xs (show Flt.pos (.fin false f.maxVal) = some _ from rfl)
    have := h3 x hx _ hq.2
    rw [e] at h1 ⊢
    simp only [Flt.pos, Option.some.injEq] at h1
    rw [← h1] at this
    have h4 : f.maxVal ≤ q := by simpa using this
    rw [← (stands_extreme hf hq).1 h4]
    exact hx
  · exact e

/-- The upper bound after adding finite numbers of the format to the least one. -/
theorem fold_lowest_mem {f : Fmt} (hf : f = .double ∨ f = .single) {xs : List Flt} (hne : xs ≠ []) (h : ∀ x ∈ xs, ∃ q, Stands f x q) :
    xs.foldl FloatMath.setIfBigger (.fin true f.maxVal) ∈ xs := by
  rcases bigger_picks.fold_mem (.fin true f.maxVal) xs with e | e
  · obtain ⟨x, hx⟩ := List.exists_mem_of_ne_nil xs hne
    obtain ⟨q, hq⟩ := h x hx
    have h0 : Flt.pos (.fin true f.maxVal) = some ((((-f.maxVal : ℚ) : WithTop ℚ)) : WithBot (WithTop ℚ)) := rfl
    obtain ⟨m, h1, -, h3⟩ := bigger_picks.fold_le xs (dualPos_some.2 h0)
    have := h3 x hx _ (dualPos_some.2 hq.2)
    rw [e, dualPos_some.2 h0] at h1
    rw [e]
    cases h1
    have h4 : q ≤ -f.maxVal := WithTop.coe_le_coe.1 (WithBot.coe_le_coe.1 (OrderDual.toDual_le_toDual.1 this))
    rw [← (stands_extreme hf hq).2 h4]
    exact hx
  · exact e

/-- All six bounds of what is added are finite numbers of the format. -/
def OpFinite (f : Fmt) (o : BBox.Op Flt) : Prop :=
  (∃ q, Stands f (opBox o).lower.x q) ∧ (∃ q, Stands f (opBox o).lower.y q) ∧ (∃ q, Stands f (opBox o).lower.z q) ∧
  (∃ q, Stands f (opBox o).upper.x q) ∧ (∃ q, Stands f (opBox o).upper.y q) ∧ ∃ q, Stands f (opBox o).upper.z q

/-- C121. For finite coordinates, at least one addition and the box of the default constructor the bounds are attained: each is, to the bit,
a coordinate that was added. With `C121_contains` the box is the least one. -/
theorem C121_attained (f : Fmt) (hf : f = .double ∨ f = .single) (ops : List (BBox.Op Flt)) (hne : ops ≠ []) (h : ∀ o ∈ ops, OpFinite f o) :
    (∃ o ∈ ops, (boxAddAll (boxEmpty f) ops).lower.x = (opBox o).lower.x) ∧ (∃ o ∈ ops, (boxAddAll (boxEmpty f) ops).lower.y = (opBox o).lower.y) ∧
    (∃ o ∈ ops, (boxAddAll (boxEmpty f) ops).lower.z = (opBox o).lower.z) ∧ (∃ o ∈ ops, (boxAddAll (boxEmpty f) ops).upper.x = (opBox o).upper.x) ∧
    (∃ o ∈ ops, (boxAddAll (boxEmpty f) ops).upper.y = (opBox o).upper.y) ∧ ∃ o ∈ ops, (boxAddAll (boxEmpty f) ops).upper.z = (opBox o).upper.z := by
  have key : ∀ {g : BBox.Op Flt → Flt} {x : Flt}, x ∈ ops.map g → ∃ o ∈ ops, x = g o := by
    intro g x hx
    obtain ⟨o, ho, e⟩ := List.mem_map.1 hx
    exact ⟨o, ho, e.symm⟩
  rw [boxAddAll_eq]
  refine ⟨key (fold_max_mem hf (by simpa using hne) ?_), key (fold_max_mem hf (by simpa using hne) ?_), key (fold_max_mem hf (by simpa using hne) ?_),
    key (fold_lowest_mem hf (by simpa using hne) ?_), key (fold_lowest_mem hf (by simpa using hne) ?_), key (fold_lowest_mem hf (by simpa using hne) ?_)⟩ <;>
  · intro x hx
    obtain ⟨o, ho, rfl⟩ := List.mem_map.1 hx
    obtain ⟨h1, h2, h3, h4, h5, h6⟩ := h o ho
    assumption

/-- C121. So it lies in every box that contains what was added: the points, and both corners of the boxes. -/
theorem C121_least (f : Fmt) (hf : f = .double ∨ f = .single) (ops : List (BBox.Op Flt)) (hne : ops ≠ []) (h : ∀ o ∈ ops, OpFinite f o)
    (c : BBox Flt) (hc : ∀ o ∈ ops, InFloatBox (opBox o).lower c ∧ InFloatBox (opBox o).upper c) (p : Vec3 Flt)
    (hp : InFloatBox p (boxAddAll (boxEmpty f) ops)) : InFloatBox p c := by
  obtain ⟨⟨a1, m1, e1⟩, ⟨a2, m2, e2⟩, ⟨a3, m3, e3⟩, ⟨a4, m4, e4⟩, ⟨a5, m5, e5⟩, ⟨a6, m6, e6⟩⟩ := C121_attained f hf ops hne h
  obtain ⟨k1, k2, k3, k4, k5, k6⟩ := hp
  rw [e1] at k1; rw [e4] at k2; rw [e2] at k3; rw [e5] at k4; rw [e3] at k5; rw [e6] at k6
  exact ⟨(hc a1 m1).1.1.tr k1, k2.tr (hc a4 m4).2.2.1, (hc a2 m2).1.2.2.1.tr k3, k4.tr (hc a5 m5).2.2.2.2.1,
    (hc a3 m3).1.2.2.2.2.1.tr k5, k6.tr (hc a6 m6).2.2.2.2.2.2⟩

/-- C121. Not so for infinities: the box of a point at infinity goes from the largest finite number to infinity, and so contains points that
the point itself, as a box, does not. -/
theorem C121_infinite_refuted (f : Fmt) : let p : Vec3 Flt := ⟨.inf false, .inf false, .inf false⟩
    let m : Vec3 Flt := ⟨.fin false f.maxVal, .fin false f.maxVal, .fin false f.maxVal⟩
    InFloatBox p (boxOf p) ∧ ¬ InFloatBox m (boxOf p) ∧ InFloatBox m (boxAddAll (boxEmpty f) [.point p]) := by
  intro p m
  have e : boxAddAll (boxEmpty f) [.point p] = ⟨m, p⟩ := by
    simp [boxAddAll, boxAdd, boxAddPoint, boxEmpty, FloatMath.setIfSmaller, FloatMath.setIfBigger, Flt.lt, m, p]
  have h1 : AtMost (.inf false) (.inf false) := le_iff.1 (by simp [Flt.le])
  have h2 : AtMost (.fin false f.maxVal) (.inf false) := le_iff.1 (by simp [Flt.le])
  have h3 : AtMost (.fin false f.maxVal) (.fin false f.maxVal) := le_iff.1 (by simp [Flt.le])
  have h4 : ¬ AtMost (.inf false) (.fin false f.maxVal) := fun h => by simpa [Flt.le] using le_iff.2 h
  rw [e]
  exact ⟨⟨h1, h1, h1, h1, h1, h1⟩, fun h => h4 h.1, ⟨h3, h2, h3, h2, h3, h2⟩⟩

/-- C121. Adding coordinates that are not numbers changes nothing: each axis by itself. -/
theorem C121_nan (b : BBox Flt) (p : Vec3 Flt) :
    (¬ IsNumber p.x → (boxAddPoint b p).lower.x = b.lower.x ∧ (boxAddPoint b p).upper.x = b.upper.x) ∧
    (¬ IsNumber p.y → (boxAddPoint b p).lower.y = b.lower.y ∧ (boxAddPoint b p).upper.y = b.upper.y) ∧
    (¬ IsNumber p.z → (boxAddPoint b p).lower.z = b.lower.z ∧ (boxAddPoint b p).upper.z = b.upper.z) := by
  have key : ∀ {x : Flt}, ¬ IsNumber x → x.pos = none := by
    intro x hx
    cases e : x.pos with
    | none => rfl
    | some q => exact absurd ⟨q, e⟩ hx
  exact ⟨fun h => ⟨smaller_picks.nan_right _ (key h), bigger_picks.nan_right _ (dualPos_none.2 (key h))⟩,
    fun h => ⟨smaller_picks.nan_right _ (key h), bigger_picks.nan_right _ (dualPos_none.2 (key h))⟩,
    fun h => ⟨smaller_picks.nan_right _ (key h), bigger_picks.nan_right _ (dualPos_none.2 (key h))⟩⟩

/-- C121. But a box that is made from a point with such a coordinate never contains anything, whatever is added to it. -/
theorem C121_nan_refuted (s : Bool) (y z : Flt) (ops : List (BBox.Op Flt)) (p : Vec3 Flt) :
    ¬ InFloatBox p (boxAddAll (boxOf ⟨.nan s, y, z⟩) ops) := by
  rw [boxAddAll_eq]
  rintro ⟨h, -⟩
  obtain ⟨q, hq⟩ := h.number.1
  have e := smaller_picks.fold_nan (a := .nan s) (ops.map fun o => (opBox o).lower.x) rfl
  simp only [boxOf] at hq
  rw [e] at hq
  cases hq

/-- C121. The order of additions does not matter, except for which zero or other equal value it is. -/
theorem C121_order (b : BBox Flt) (ops ops' : List (BBox.Op Flt)) (h : ops.Perm ops') :
    (boxAddAll b ops).lower.x.pos = (boxAddAll b ops').lower.x.pos ∧ (boxAddAll b ops).lower.y.pos = (boxAddAll b ops').lower.y.pos ∧
    (boxAddAll b ops).lower.z.pos = (boxAddAll b ops').lower.z.pos ∧ (boxAddAll b ops).upper.x.pos = (boxAddAll b ops').upper.x.pos ∧
    (boxAddAll b ops).upper.y.pos = (boxAddAll b ops').upper.y.pos ∧ (boxAddAll b ops).upper.z.pos = (boxAddAll b ops').upper.z.pos := by
  have key : ∀ {x y : Flt}, dualPos x = dualPos y → x.pos = y.pos := by
    intro x y e
    unfold dualPos at e
    exact Option.map_injective OrderDual.toDual.injective e
  rw [boxAddAll_eq, boxAddAll_eq]
  exact ⟨smaller_picks.fold_perm _ (h.map _), smaller_picks.fold_perm _ (h.map _), smaller_picks.fold_perm _ (h.map _),
    key (bigger_picks.fold_perm _ (h.map _)), key (bigger_picks.fold_perm _ (h.map _)), key (bigger_picks.fold_perm _ (h.map _))⟩

/-- C121. The bits can depend on the order: of two zeros the first one stays. -/
theorem C121_order_refuted : let zero (s : Bool) : BBox.Op Flt := .point ⟨.fin s 0, .fin s 0, .fin s 0⟩
    boxAddAll (boxEmpty .double) [zero true, zero false] ≠ boxAddAll (boxEmpty .double) [zero false, zero true] := by decide +kernel

/-- C121. Collecting in two boxes and adding one to the other gives, to the bit, the box of all, whatever the coordinates. -/
theorem C121_union (f : Fmt) (ops ops' : List (BBox.Op Flt)) :
    boxAddBox (boxAddAll (boxEmpty f) ops) (boxAddAll (boxEmpty f) ops') = boxAddAll (boxEmpty f) (ops ++ ops') := by
  have k1 : ∀ xs ys : List Flt, FloatMath.setIfSmaller (xs.foldl FloatMath.setIfSmaller (.fin false f.maxVal)) (ys.foldl FloatMath.setIfSmaller (.fin false f.maxVal)) =
      (xs ++ ys).foldl FloatMath.setIfSmaller (.fin false f.maxVal) := by
    intro xs ys
    obtain ⟨m, h1, h2, -⟩ := smaller_picks.fold_le xs (show Flt.pos (.fin false f.maxVal) = some _ from rfl)
    rw [List.foldl_append, smaller_picks.fold_append (t := .fin false f.maxVal) rfl h1 h2 ys]
  have k2 : ∀ xs ys : List Flt, FloatMath.setIfBigger (xs.foldl FloatMath.setIfBigger (.fin true f.maxVal)) (ys.foldl FloatMath.setIfBigger (.fin true f.maxVal)) =
      (xs ++ ys).foldl FloatMath.setIfBigger (.fin true f.maxVal) := by
    intro xs ys
    obtain ⟨m, h1, h2, -⟩ := bigger_picks.fold_le xs (show dualPos (.fin true f.maxVal) = some _ from rfl)
    rw [List.foldl_append, bigger_picks.fold_append (t := .fin true f.maxVal) rfl h1 h2 ys]
  rw [boxAddAll_eq, boxAddAll_eq, boxAddAll_eq]
  simp only [List.map_append]
  unfold boxAddBox boxEmpty
  simp only [k1, k2]

/-! Two points, one with an infinite coordinate, and a box. -/

private def boxOps : List (BBox.Op Flt) :=
  [.point ⟨.fin false 1, .fin true 2, .inf true⟩, .point ⟨.fin true 1, .nan false, .fin false 3⟩,
   .box ⟨⟨.fin false 0, .fin true 5, .fin false 1⟩, ⟨.fin false 7, .fin false 5, .inf false⟩⟩]

example : HasBounds (boxEmpty .double) ∧ boxAddAll (boxEmpty .double) boxOps =
    ⟨⟨.fin true 1, .fin true 5, .inf true⟩, ⟨.fin false 7, .fin false 5, .inf false⟩⟩ :=
  ⟨⟨⟨_, rfl⟩, ⟨_, rfl⟩, ⟨_, rfl⟩, ⟨_, rfl⟩, ⟨_, rfl⟩, ⟨_, rfl⟩⟩, by decide +kernel⟩

/-- Finite points meet the hypotheses of `C121_attained` and `C121_least`. -/
example : OpFinite .double (.point ⟨.fin false 1, .fin true 2, .fin false 3⟩) ∧
    boxAddAll (boxEmpty .double) [.point ⟨.fin false 1, .fin true 2, .fin false 3⟩, .point ⟨.fin false 4, .fin false 5, .fin true 6⟩] =
      ⟨⟨.fin false 1, .fin true 2, .fin true 6⟩, ⟨.fin false 4, .fin false 5, .fin false 3⟩⟩ := by
  refine ⟨?_, by decide +kernel⟩
  have h1 : ∃ q, Stands .double (.fin false 1) q := ⟨1, by simpa using stands_double false (n := 1) (e := 0) (by norm_num) (by norm_num)⟩
  have h2 : ∃ q, Stands .double (.fin true 2) q := ⟨-2, by simpa using stands_double true (n := 2) (e := 0) (by norm_num) (by norm_num)⟩
  have h3 : ∃ q, Stands .double (.fin false 3) q := ⟨3, by simpa using stands_double false (n := 3) (e := 0) (by norm_num) (by norm_num)⟩
  exact ⟨h1, h2, h3, h1, h2, h3⟩

end Flut
