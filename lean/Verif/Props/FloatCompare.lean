import Verif.Model.FloatCompare

/-!
# C170: comparing vectors and angles of floating-point numbers

`Flt.pos` is the place of a number on the line from minus to plus infinity.
-/

namespace Flut

namespace FloatMath

/-- Both are numbers, at the same place. -/
def SamePlace (a b : Flt) : Prop := a.pos ≠ none ∧ a.pos = b.pos

theorem eq_iff (a b : Flt) : a.eq b = true ↔ SamePlace a b := by
  unfold SamePlace
  rcases a with ⟨s, m⟩ | ⟨_ | _⟩ | s <;> rcases b with ⟨s', m'⟩ | ⟨_ | _⟩ | s' <;> simp [Flt.eq, Flt.pos]
  all_goals try decide
  all_goals norm_cast

theorem SamePlace.symm {a b : Flt} (h : SamePlace a b) : SamePlace b a := ⟨h.2 ▸ h.1, h.2.symm⟩

theorem SamePlace.trans {a b c : Flt} (h : SamePlace a b) (h' : SamePlace b c) : SamePlace a c := ⟨h.1, h.2.trans h'.2⟩

/-- C170: vectors are equal exactly if all their components are numbers at the same places, and `!=` is the opposite. -/
theorem C170_equal (v w : Vec3 Flt) :
    (vecEq v w = true ↔ SamePlace v.x w.x ∧ SamePlace v.y w.y ∧ SamePlace v.z w.z) ∧ (vecNe v w = true ↔ ¬ vecEq v w = true) := by
  constructor
  · simp only [vecEq, Bool.and_eq_true, eq_iff, and_assoc]
  · simp [vecNe]

/-- C170: equality of vectors can be turned around and chained; a vector equals itself exactly if it has no component that is not a
number. -/
theorem C170_equivalence (u v w : Vec3 Flt) :
    (vecEq v w = true → vecEq w v = true) ∧ (vecEq u v = true → vecEq v w = true → vecEq u w = true) ∧
    (vecEq v v = true ↔ v.x.pos ≠ none ∧ v.y.pos ≠ none ∧ v.z.pos ≠ none) := by
  simp only [(C170_equal _ _).1]
  refine ⟨fun h => ⟨h.1.symm, h.2.1.symm, h.2.2.symm⟩, fun h h' => ⟨h.1.trans h'.1, h.2.1.trans h'.2.1, h.2.2.trans h'.2.2⟩, ?_⟩
  simp [SamePlace]

theorem square_eq (f : Fmt) {a b : Flt} (h : a.eq b = true) : f.mul a a = f.mul b b := by
  rcases a with ⟨s, m⟩ | s | s <;> rcases b with ⟨s', m'⟩ | s' | s' <;> simp only [Flt.eq, decide_eq_true_eq, Bool.false_eq_true] at h
  · have : m * m = m' * m' := by
      have h2 := congrArg (fun q : ℚ => q * q) h
      cases s <;> cases s' <;> simpa using h2
    simp [Fmt.mul, this]
  · simp [Fmt.mul]

theorem zero_eq {a b : Flt} (h : a.eq b = true) : a.eq (.fin false 0) = b.eq (.fin false 0) := by
  rw [Bool.eq_iff_iff, eq_iff, eq_iff]
  rw [eq_iff] at h
  exact ⟨h.symm.trans, h.trans⟩

/-- C170: equal vectors have the same length, to the last bit, and are both null or both not. -/
theorem C170_length (f : Fmt) (v w : Vec3 Flt) (h : vecEq v w = true) :
    length f v = length f w ∧ squaredLength f v = squaredLength f w ∧ isNull v = isNull w := by
  simp only [vecEq, Bool.and_eq_true] at h
  obtain ⟨⟨hx, hy⟩, hz⟩ := h
  refine ⟨?_, ?_, ?_⟩
  · simp only [length, square_eq f hx, square_eq f hy, square_eq f hz]
  · simp only [squaredLength, square_eq f hx, square_eq f hy, square_eq f hz]
  · simp only [isNull, zero_eq hx, zero_eq hy, zero_eq hz]

example : vecEq ⟨.fin true 0, .fin false 1, .inf true⟩ ⟨.fin false 0, .fin false 1, .inf true⟩ = true ∧
    vecEq ⟨.nan false, .fin false 1, .fin false 1⟩ ⟨.nan false, .fin false 1, .fin false 1⟩ = false := by decide

theorem result_zero_cases (f : Fmt) (hf : f = .double ∨ f = .single) (s : Bool) : f.result s 0 = .fin s 0 := by
  rcases hf with rfl | rfl <;> cases s <;> decide +kernel

theorem sub_self_place (f : Fmt) (hf : f = .double ∨ f = .single) (s s' : Bool) (m m' : ℚ)
    (h : (Flt.fin s m).eq (.fin s' m') = true) : ∃ t, f.sub (.fin s m) (.fin s' m') = .fin t 0 := by
  simp only [Flt.eq, decide_eq_true_eq] at h
  refine ⟨s && !s', ?_⟩
  rw [← result_zero_cases f hf]
  simp only [Fmt.sub, Flt.neg, Fmt.add]
  congr 1
  rw [h]
  cases s' <;> simp

/-- C170: the distance of equal vectors of finite numbers is 0. -/
theorem C170_distance (f : Fmt) (hf : f = .double ∨ f = .single) (s s' : Fin 3 → Bool) (m m' : Fin 3 → ℚ)
    (h : vecEq ⟨.fin (s 0) (m 0), .fin (s 1) (m 1), .fin (s 2) (m 2)⟩ ⟨.fin (s' 0) (m' 0), .fin (s' 1) (m' 1), .fin (s' 2) (m' 2)⟩ = true) :
    distance f ⟨.fin (s 0) (m 0), .fin (s 1) (m 1), .fin (s 2) (m 2)⟩ ⟨.fin (s' 0) (m' 0), .fin (s' 1) (m' 1), .fin (s' 2) (m' 2)⟩ =
      .fin false 0 := by
  simp only [vecEq, Bool.and_eq_true] at h
  obtain ⟨⟨hx, hy⟩, hz⟩ := h
  obtain ⟨a, ha⟩ := sub_self_place f hf _ _ _ _ hx
  obtain ⟨b, hb⟩ := sub_self_place f hf _ _ _ _ hy
  obtain ⟨c, hc⟩ := sub_self_place f hf _ _ _ _ hz
  simp only [distance, ha, hb, hc, squared, Fmt.mul]
  simp [result_zero_cases f hf, Fmt.add, Fmt.sqrt]

/-- The opposite is false: vectors that differ can have distance 0, because squares of small numbers are rounded to 0; and equal
vectors with an infinite component have a distance that is not a number. -/
theorem C170_distance_refuted :
    (∃ v w : Vec3 Flt, vecEq v w = false ∧ distance .double v w = .fin false 0) ∧
    (∃ v w : Vec3 Flt, vecEq v w = true ∧ distance .double v w = .nan false) :=
  ⟨⟨⟨.fin false (1 / 2 ^ 600), .fin false 0, .fin false 0⟩, ⟨.fin false 0, .fin false 0, .fin false 0⟩, by decide +kernel⟩,
    ⟨⟨.inf false, .fin false 0, .fin false 0⟩, ⟨.inf false, .fin false 0, .fin false 0⟩, by decide +kernel⟩⟩

theorem lt_pos (a b : Flt) {p q : WithBot (WithTop ℚ)} (ha : a.pos = some p) (hb : b.pos = some q) : a.lt b = true ↔ p < q := by
  rcases a with ⟨s, m⟩ | ⟨_ | _⟩ | s <;> rcases b with ⟨s', m'⟩ | ⟨_ | _⟩ | s' <;> simp only [Flt.pos, Option.some.injEq, reduceCtorEq] at ha hb
  all_goals subst ha hb
  all_goals simp [Flt.lt]
  exact WithBot.coe_lt_coe.mpr (WithTop.coe_lt_top _)

theorem le_pos (a b : Flt) {p q : WithBot (WithTop ℚ)} (ha : a.pos = some p) (hb : b.pos = some q) : a.le b = true ↔ p ≤ q := by
  rcases a with ⟨s, m⟩ | ⟨_ | _⟩ | s <;> rcases b with ⟨s', m'⟩ | ⟨_ | _⟩ | s' <;> simp only [Flt.pos, Option.some.injEq, reduceCtorEq] at ha hb
  all_goals subst ha hb
  all_goals simp [Flt.le]

theorem eq_pos (a b : Flt) {p q : WithBot (WithTop ℚ)} (ha : a.pos = some p) (hb : b.pos = some q) : a.eq b = true ↔ p = q := by
  rw [eq_iff, SamePlace, ha, hb]
  simp

/-- C170: of two angles whose values are numbers, exactly one of `<`, `==` and `>` holds, and the other three comparisons are their
opposites. If one of them is not a number, only `!=` holds. -/
theorem C170_angles (a b : Flt) :
    (a.pos ≠ none → b.pos ≠ none →
      (compareAngles a b = ⟨true, false, true, false, false, true⟩ ∨ compareAngles a b = ⟨false, true, false, true, false, true⟩ ∨
        compareAngles a b = ⟨false, false, true, true, true, false⟩) ∧
      (∀ p q, a.pos = some p → b.pos = some q →
        ((compareAngles a b).lt = true ↔ p < q) ∧ ((compareAngles a b).gt = true ↔ q < p) ∧ ((compareAngles a b).eq = true ↔ p = q))) ∧
    (a.pos = none ∨ b.pos = none → compareAngles a b = ⟨false, false, false, false, false, true⟩) := by
  refine ⟨fun ha hb => ?_, fun h => ?_⟩
  · obtain ⟨p, hp⟩ := Option.ne_none_iff_exists'.mp ha
    obtain ⟨q, hq⟩ := Option.ne_none_iff_exists'.mp hb
    have l := lt_pos a b hp hq
    have g := lt_pos b a hq hp
    have le := le_pos a b hp hq
    have ge := le_pos b a hq hp
    have e := eq_pos a b hp hq
    refine ⟨?_, fun p' q' hp' hq' => ?_⟩
    · unfold compareAngles
      rcases lt_trichotomy p q with h | h | h
      · have h1 : b.lt a = false := by rw [← Bool.not_eq_true, g]; exact h.asymm
        have h2 : b.le a = false := by rw [← Bool.not_eq_true, ge]; exact not_le_of_gt h
        have h3 : a.eq b = false := by rw [← Bool.not_eq_true, e]; exact h.ne
        rw [h1, l.mpr h, h2, le.mpr h.le, h3]
        exact .inr (.inl rfl)
      · have h1 : b.lt a = false := by rw [← Bool.not_eq_true, g, h]; exact lt_irrefl _
        have h2 : a.lt b = false := by rw [← Bool.not_eq_true, l, h]; exact lt_irrefl _
        rw [h1, h2, ge.mpr h.ge, le.mpr h.le, e.mpr h]
        exact .inr (.inr rfl)
      · have h1 : a.lt b = false := by rw [← Bool.not_eq_true, l]; exact h.asymm
        have h2 : a.le b = false := by rw [← Bool.not_eq_true, le]; exact not_le_of_gt h
        have h3 : a.eq b = false := by rw [← Bool.not_eq_true, e]; exact h.ne'
        rw [h1, g.mpr h, h2, ge.mpr h.le, h3]
        exact .inl rfl
    · cases hp.symm.trans hp'
      cases hq.symm.trans hq'
      exact ⟨l, g, e⟩
  · rcases a with ⟨s, m⟩ | ⟨_ | _⟩ | s <;> rcases b with ⟨s', m'⟩ | ⟨_ | _⟩ | s' <;>
      first | rfl | simp [Flt.pos] at h

example : compareAngles (.fin true 1) (.fin false 2) = ⟨false, true, false, true, false, true⟩ := by decide

end FloatMath

end Flut
