import Verif.Model.IntWrap
import Mathlib.Tactic.Linarith

/-!
# C174: wrapping whole numbers to a range
-/

namespace Flut

namespace IntWrap

/-- A value of type `int`. -/
def InInt (x : Int) : Prop := -2 ^ 31 ≤ x ∧ x < 2 ^ 31

theorem chk_ok {x : Int} (h : InInt x) : chk x = .ok x := if_pos h

/-- C174: a number of type `int` is wrapped to a number from `lower` to `upper` that differs from it by a multiple of the width; it is
below `upper` unless the number is a whole number of widths below `lower`. -/
theorem C174_int (v lower upper : Int) (hl : InInt lower) (hu : InInt upper) (h : lower < upper) (hd : InInt (v - lower))
    (hw : InInt (upper - lower)) :
    ∃ r, wrapInt v lower upper = .ok r ∧ lower ≤ r ∧ r ≤ upper ∧ (∃ k, v = r + k * (upper - lower)) ∧
      (r = upper ↔ v < lower ∧ ∃ k, v = lower - k * (upper - lower)) := by
  have hpos : 0 < upper - lower := by omega
  obtain ⟨l1, l2⟩ := hl
  obtain ⟨u1, u2⟩ := hu
  unfold wrapInt
  simp only [chk_ok hd, chk_ok hw, Res.bind_ok]
  rw [if_neg (by omega)]
  by_cases h0 : v - lower ≥ 0
  · rw [if_pos h0, Int.tmod_eq_emod_of_nonneg h0]
    have e1 := Int.emod_nonneg (v - lower) hpos.ne'
    have e2 := Int.emod_lt_of_pos (v - lower) hpos
    have e3 := Int.mul_ediv_add_emod (v - lower) (upper - lower)
    refine ⟨_, chk_ok ⟨by omega, by omega⟩, by omega, by omega, ⟨(v - lower) / (upper - lower), by linarith⟩, ?_⟩
    constructor
    · intro h; omega
    · intro h; omega
  · rw [if_neg h0]
    obtain ⟨d, hd'⟩ : ∃ d, v - lower = -d := ⟨lower - v, by omega⟩
    have hd0 : 0 ≤ d := by omega
    rw [hd', Int.neg_tmod, Int.tmod_eq_emod_of_nonneg hd0]
    have e1 := Int.emod_nonneg d hpos.ne'
    have e2 := Int.emod_lt_of_pos d hpos
    have e3 := Int.mul_ediv_add_emod d (upper - lower)
    refine ⟨_, chk_ok ⟨by omega, by omega⟩, by omega, by omega, ⟨-(d / (upper - lower)) - 1, by linarith⟩, ?_⟩
    constructor
    · intro h
      exact ⟨by omega, d / (upper - lower), by linarith [show d % (upper - lower) = 0 by omega]⟩
    · rintro ⟨-, k, hk⟩
      have : d = k * (upper - lower) := by linarith
      rw [this, Int.mul_emod_left]
      omega

example : wrapInt 370 0 360 = .ok 10 ∧ wrapInt (-10) 0 360 = .ok 350 ∧ wrapInt 190 (-180) 180 = .ok (-170) := by decide

/-- C174 is false at whole widths below the range: -360 is wrapped to 360, not to 0, which 360 is wrapped to. -/
theorem C174_int_refuted : wrapInt (-360) 0 360 = .ok 360 ∧ wrapInt 360 0 360 = .ok 0 := by decide

/-- C174: a number of type `unsigned int` that is not below `lower` is wrapped right. -/
theorem C174_unsigned_partial (v lower upper : Nat) (h : lower < upper) (hv : lower ≤ v) (hv2 : v < 2 ^ 32) (hu : upper < 2 ^ 32) :
    ∃ r, wrapUnsigned v lower upper = .ok r ∧ lower ≤ r ∧ r < upper ∧ ∃ k, v = r + k * (upper - lower) := by
  have e1 : (v + (2 ^ 32 - lower)) % 2 ^ 32 = v - lower := by omega
  have e2 : (upper + (2 ^ 32 - lower)) % 2 ^ 32 = upper - lower := by omega
  have hw : 0 < upper - lower := by omega
  have hm := Nat.mod_lt (v - lower) hw
  have hd := Nat.div_add_mod' (v - lower) (upper - lower)
  refine ⟨(v - lower) % (upper - lower) + lower, ?_, by omega, by omega, (v - lower) / (upper - lower), by omega⟩
  unfold wrapUnsigned
  simp only [e1, e2]
  rw [if_neg (by omega), if_pos (by omega)]

example : wrapUnsigned 9 1 4 = .ok 3 := by decide

/-- C174 is false below `lower`: 0 differs from 3 by the width of the range from 1 to 4, and is wrapped to 1. -/
theorem C174_unsigned_refuted : wrapUnsigned 0 1 4 = .ok 1 ∧ ¬ ∃ k : Int, (0 : Int) = 1 + k * (4 - 1) := by
  refine ⟨by decide, ?_⟩
  rintro ⟨k, hk⟩
  omega

end IntWrap

end Flut
