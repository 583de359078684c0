import Verif.Proofs.FloatOps

/-! # C98: clamping and bounds in floating-point arithmetic -/

namespace Flut

open Spec FloatMath

/-- For numbers, finite or not: the result is within the limits, values within are returned as they are, others are replaced by
the limit they exceed. -/
theorem C98_clamp (v min max : Flt) (hv : IsNumber v) (h : AtMost min max) :
    AtMost min (clamp v min max) ∧ AtMost (clamp v min max) max ∧ (AtMost min v → AtMost v max → clamp v min max = v) ∧
    (Below v min → clamp v min max = min) ∧ (Below max v → clamp v min max = max) := by
  have hm : IsNumber min := ⟨_, h.choose_spec.choose_spec.1⟩
  have hM : IsNumber max := ⟨_, h.choose_spec.choose_spec.2.1⟩
  unfold clamp
  by_cases h1 : v.lt min = true
  · rw [if_pos h1]
    rw [lt_iff] at h1
    exact ⟨hm.refl, h, fun h2 => absurd h1 (not_below h2), fun _ => rfl, fun h2 => absurd (h1.trans_atMost h) (not_below h2.atMost)⟩
  · rw [if_neg h1]
    rw [lt_iff, not_below_iff hv hm] at h1
    by_cases h2 : max.lt v = true
    · rw [if_pos h2]
      rw [lt_iff] at h2
      exact ⟨h, hM.refl, fun _ h3 => absurd h2 (not_below h3), fun h3 => absurd h3 (not_below h1), fun _ => rfl⟩
    · rw [if_neg h2]
      rw [lt_iff, not_below_iff hM hv] at h2
      exact ⟨h1, h2, fun _ _ => rfl, fun h3 => absurd h3 (not_below h1), fun h3 => absurd h3 (not_below h2)⟩

example : IsNumber (.inf true) ∧ AtMost (.fin true 1) (.inf false) := ⟨⟨_, rfl⟩, _, _, rfl, rfl, by decide⟩

/-- That the result is always within the limits is false: not-a-number passes. -/
theorem C98_clamp_refuted (s : Bool) (min max : Flt) : clamp (.nan s) min max = .nan s ∧
    ¬ AtMost min (clamp (.nan s) min max) := by
  have h : clamp (.nan s) min max = .nan s := by cases min <;> cases max <;> rfl
  rw [h]
  exact ⟨rfl, fun ⟨_, _, _, h, _⟩ => by cases h⟩

/-- `is_between` and `bounds::is_within` say whether a number is in the range; not-a-number never is. -/
theorem C98_between (v min max : Flt) : isBetween v min max = true ↔ AtMost min v ∧ AtMost v max := by
  rw [isBetween, Bool.and_eq_true, le_iff, le_iff]

example : isBetween (.fin false 1) (.fin true 1) (.inf false) = true ∧ isBetween (.nan false) (.inf true) (.inf false) = false := by decide

/-- The smaller and the bigger one; not-a-number does not replace a number, but is not replaced, either. -/
theorem C98_set_if (v o : Flt) (hv : IsNumber v) :
    (IsNumber o → (AtMost (setIfSmaller v o) v ∧ AtMost (setIfSmaller v o) o ∧ (setIfSmaller v o = v ∨ setIfSmaller v o = o)) ∧
      AtMost v (setIfBigger v o) ∧ AtMost o (setIfBigger v o) ∧ (setIfBigger v o = v ∨ setIfBigger v o = o)) ∧
    (¬ IsNumber o → setIfSmaller v o = v ∧ setIfBigger v o = v ∧ setIfSmaller o v = o ∧ setIfBigger o v = o) := by
  refine ⟨fun ho => ⟨?_, ?_⟩, fun ho => ?_⟩
  · unfold setIfSmaller
    by_cases h : o.lt v = true
    · rw [if_pos h]; rw [lt_iff] at h; exact ⟨h.atMost, ho.refl, .inr rfl⟩
    · rw [if_neg h]; rw [lt_iff, not_below_iff ho hv] at h; exact ⟨hv.refl, h, .inl rfl⟩
  · unfold setIfBigger
    by_cases h : v.lt o = true
    · rw [if_pos h]; rw [lt_iff] at h; exact ⟨h.atMost, ho.refl, .inr rfl⟩
    · rw [if_neg h]; rw [lt_iff, not_below_iff hv ho] at h; exact ⟨hv.refl, h, .inl rfl⟩
  · have h1 : ¬ Below o v := fun ⟨_, _, h, _⟩ => ho ⟨_, h⟩
    have h2 : ¬ Below v o := fun ⟨_, _, _, h, _⟩ => ho ⟨_, h⟩
    simp only [setIfSmaller, setIfBigger]
    rw [if_neg (by rwa [lt_iff]), if_neg (by rwa [lt_iff]), if_neg (by rwa [lt_iff]), if_neg (by rwa [lt_iff])]
    exact ⟨rfl, rfl, rfl, rfl⟩

example : IsNumber (.fin true 0) ∧ ¬ IsNumber (.nan false) := ⟨⟨_, rfl⟩, fun ⟨_, h⟩ => by cases h⟩

/-- The sign is 1 or -1: 1 exactly for numbers not below zero, which includes the negative zero. -/
theorem C98_sign (v : Flt) : (sign v = .fin false 1 ↔ AtMost (.fin false 0) v) ∧ (sign v = .fin true 1 ↔ ¬ AtMost (.fin false 0) v) := by
  unfold sign
  by_cases h : (Flt.fin false 0).le v = true
  · rw [if_pos h]; rw [le_iff] at h; simp [h]
  · rw [if_neg h]; rw [le_iff] at h; simp [h]

example : sign (.fin true 0) = .fin false 1 ∧ sign (.nan false) = .fin true 1 := by decide

/-- The violation of bounds is zero exactly for numbers within, negative exactly below, positive exactly above, however near:
differences do not vanish by rounding. -/
theorem C98_violation (f : Fmt) (hf : f = .double ∨ f = .single) (lower upper v : Flt) (hl : IsFloat f lower) (hu : IsFloat f upper)
    (hv : IsFloat f v) (hn : IsNumber v) (h : AtMost lower upper) :
    (getViolation f lower upper v = .fin false 0 ↔ isBetween v lower upper = true) ∧
    (Below (getViolation f lower upper v) (.fin false 0) ↔ Below v lower) ∧
    (Below (.fin false 0) (getViolation f lower upper v) ↔ Below upper v) := by
  have hm : IsNumber lower := ⟨_, h.choose_spec.choose_spec.1⟩
  have hM : IsNumber upper := ⟨_, h.choose_spec.choose_spec.2.1⟩
  have irr : ∀ x : Flt, ¬ Below x x := fun x hx => not_below hx.atMost hx
  rw [C98_between]
  unfold getViolation
  by_cases h1 : v.lt lower = true
  · rw [if_pos h1]
    rw [lt_iff] at h1
    have hs := sub_below hf hv hl h1
    refine ⟨⟨fun e => absurd (e ▸ hs) (irr _), fun e => absurd h1 (not_below e.1)⟩, ⟨fun _ => h1, fun _ => hs⟩, ?_⟩
    exact ⟨fun e => absurd e (not_below hs.atMost), fun e => absurd (h1.trans_atMost h) (not_below e.atMost)⟩
  · rw [if_neg h1]
    rw [lt_iff] at h1
    by_cases h2 : upper.lt v = true
    · rw [if_pos h2]
      rw [lt_iff] at h2
      have hs := sub_above hf hv hu h2
      refine ⟨⟨fun e => absurd (e ▸ hs) (irr _), fun e => absurd h2 (not_below e.2)⟩, ?_, ⟨fun _ => h2, fun _ => hs⟩⟩
      exact ⟨fun e => absurd e (not_below hs.atMost), fun e => absurd e h1⟩
    · rw [if_neg h2]
      rw [lt_iff] at h2
      refine ⟨⟨fun _ => ⟨?_, ?_⟩, fun _ => rfl⟩, ⟨fun e => absurd e (irr _), fun e => absurd e h1⟩, ⟨fun e => absurd e (irr _), fun e => absurd e h2⟩⟩
      · exact (not_below_iff hn hm).1 h1
      · exact (not_below_iff hM hn).1 h2

example : IsFloat .double (.fin true (1 / 2 ^ 1)) ∧ IsNumber (.fin true (1 / 2 ^ 1)) ∧ AtMost (.fin false 0) (.fin false 1) ∧
    Below (getViolation .double (.fin false 0) (.fin false 1) (.fin true (1 / 2 ^ 1))) (.fin false 0) :=
  ⟨by simpa using (stands_double true (n := 1) (e := 1) (by norm_num) (by norm_num)).1, ⟨_, rfl⟩, le_iff.1 (by decide), lt_iff.1 (by decide +kernel)⟩

end Flut
