import Verif.Proofs.Real
import Verif.Model.FloatMath
import Mathlib.Tactic.Linarith
import Mathlib.Tactic.Ring
import Mathlib.Tactic.Positivity

/-! # Lemmas on floating-point arithmetic -/

namespace Flut

open Spec

namespace Fmt

variable {f : Fmt}

theorem rnd_mono (hp : 1 ≤ f.prec) {q q' : ℚ} (h0 : 0 ≤ q) (h : q ≤ q') : f.rnd q ≤ f.rnd q' := by
  rcases h.eq_or_lt with rfl | h
  · exact le_rfl
  have n1 := rnd_nearest (f := f) hp h0
  have n2 := rnd_nearest (f := f) hp (h0.trans h.le)
  by_contra hc
  push Not at hc
  have a := n1.2 _ n2.1
  have b := n2.2 _ n1.1
  rcases abs_cases (f.rnd q - q) with ⟨e1, _⟩ | ⟨e1, _⟩ <;> rcases abs_cases (f.rnd q' - q) with ⟨e2, _⟩ | ⟨e2, _⟩ <;>
  rcases abs_cases (f.rnd q' - q') with ⟨e3, _⟩ | ⟨e3, _⟩ <;> rcases abs_cases (f.rnd q - q') with ⟨e4, _⟩ | ⟨e4, _⟩ <;>
  rw [e1, e2] at a <;> rw [e3, e4] at b <;> linarith

/-- Rounding with sign, without regard to the largest exponent. -/
def srnd (f : Fmt) (q : ℚ) : ℚ := if q < 0 then -f.rnd (-q) else f.rnd q

theorem srnd_nonneg {q : ℚ} (h : 0 ≤ q) : f.srnd q = f.rnd q := by rw [srnd, if_neg (not_lt.2 h)]

theorem srnd_neg (q : ℚ) : f.srnd (-q) = -f.srnd q := by
  unfold srnd
  rcases lt_trichotomy q 0 with h | h | h
  · rw [if_neg (by linarith), if_pos h, neg_neg]
  · subst h; simp [rnd_zero]
  · rw [if_pos (by linarith), if_neg (by linarith), neg_neg]

theorem abs_srnd (q : ℚ) : |f.srnd q| = f.rnd |q| := by
  rcases le_total 0 q with h | h
  · rw [srnd_nonneg h, abs_of_nonneg h, abs_of_nonneg (rnd_nonneg f h)]
  · have h' : 0 ≤ -q := by linarith
    have e : f.srnd q = -f.rnd (-q) := by rw [← srnd_nonneg h', srnd_neg, neg_neg]
    rw [e, abs_neg, abs_of_nonpos h, abs_of_nonneg (rnd_nonneg f h')]

theorem isBinary_neg {p : Nat} {e : Int} {x : ℚ} (h : IsBinary p e x) : IsBinary p e (-x) := by
  obtain ⟨m, k, hm, hk, rfl⟩ := h
  exact ⟨-m, k, by rwa [abs_neg], hk, by push_cast; ring⟩

theorem srnd_nearest (hp : 1 ≤ f.prec) (q : ℚ) : Nearest (IsBinary f.prec f.emin) q (f.srnd q) := by
  rcases le_total 0 q with h | h
  · rw [srnd_nonneg h]; exact rnd_nearest f hp h
  · have h' : 0 ≤ -q := by linarith
    have n := rnd_nearest (f := f) hp h'
    have e : f.srnd q = -f.rnd (-q) := by rw [← srnd_nonneg h', srnd_neg, neg_neg]
    rw [e]
    refine ⟨isBinary_neg n.1, fun z hz => ?_⟩
    have := n.2 (-z) (isBinary_neg hz)
    have e1 : -f.rnd (-q) - q = -(f.rnd (-q) - -q) := by ring
    have e2 : z - q = -(-z - -q) := by ring
    rw [e1, e2, abs_neg, abs_neg]
    exact this

theorem srnd_mono (hp : 1 ≤ f.prec) {q q' : ℚ} (h : q ≤ q') : f.srnd q ≤ f.srnd q' := by
  rcases le_total 0 q with h0 | h0
  · rw [srnd_nonneg h0, srnd_nonneg (h0.trans h)]; exact rnd_mono hp h0 h
  · rcases le_total 0 q' with h1 | h1
    · have e : f.srnd q = -f.rnd (-q) := by rw [← srnd_nonneg (by linarith : 0 ≤ -q), srnd_neg, neg_neg]
      rw [e, srnd_nonneg h1]
      have := rnd_nonneg (f := f) (by linarith : 0 ≤ -q)
      have := rnd_nonneg (f := f) h1
      linarith
    · have e : f.srnd q = -f.rnd (-q) := by rw [← srnd_nonneg (by linarith : 0 ≤ -q), srnd_neg, neg_neg]
      have e' : f.srnd q' = -f.rnd (-q') := by rw [← srnd_nonneg (by linarith : 0 ≤ -q'), srnd_neg, neg_neg]
      rw [e, e']
      have := rnd_mono (f := f) hp (by linarith : 0 ≤ -q') (by linarith : -q' ≤ -q)
      linarith

theorem srnd_self (hp : 1 ≤ f.prec) {q : ℚ} (hq : IsBinary f.prec f.emin q) : f.srnd q = q := by
  have := (srnd_nearest (f := f) hp q).2 q hq
  rw [sub_self, abs_zero] at this
  have := abs_nonpos_iff.1 this
  linarith

theorem srnd_zero : f.srnd 0 = 0 := by rw [srnd_nonneg le_rfl, rnd_zero]

theorem le_srnd (hp : 1 ≤ f.prec) {q z : ℚ} (hz : IsBinary f.prec f.emin z) (h : z ≤ q) : z ≤ f.srnd q := by
  rw [← srnd_self hp hz]; exact srnd_mono hp h

theorem srnd_le (hp : 1 ≤ f.prec) {q z : ℚ} (hz : IsBinary f.prec f.emin z) (h : q ≤ z) : f.srnd q ≤ z := by
  rw [← srnd_self hp hz]; exact srnd_mono hp h

/-- The number is not out of range after rounding. -/
def Fits (f : Fmt) (q : ℚ) : Prop := |f.srnd q| ≤ f.maxVal

theorem result_fits {z : Bool} {q : ℚ} (h : f.Fits q) :
    f.result z q = .fin (if q = 0 then z else decide (q < 0)) |f.srnd q| ∧ (f.result z q).val = f.srnd q := by
  unfold Fits at h
  have e : f.result z q = .fin (if q = 0 then z else decide (q < 0)) |f.srnd q| := by
    unfold result
    rw [if_neg (by rw [← abs_srnd]; exact not_lt.2 h), abs_srnd]
  refine ⟨e, ?_⟩
  rw [e]
  simp only [Flt.val]
  rcases lt_trichotomy q 0 with h | h | h
  · rw [if_neg h.ne, decide_eq_true h, if_pos rfl]
    have : f.srnd q ≤ 0 := by
      rw [srnd, if_pos h]; have := rnd_nonneg (f := f) (by linarith : 0 ≤ -q); linarith
    rw [abs_of_nonpos this, neg_neg]
  · subst h; simp [srnd_zero]
  · rw [if_neg h.ne', decide_eq_false (not_lt.2 h.le)]
    simp only [Bool.false_eq_true, if_false]
    exact abs_of_nonneg (by rw [srnd_nonneg h.le]; exact rnd_nonneg f h.le)

theorem result_over {z : Bool} {q : ℚ} (h : ¬ f.Fits q) : f.result z q = .inf (decide (q < 0)) := by
  unfold Fits at h
  push Not at h
  have h0 : q ≠ 0 := by
    rintro rfl
    rw [srnd_zero, abs_zero] at h
    have : 0 ≤ f.maxVal := by
      unfold maxVal
      have : (1 : ℚ) ≤ 2 ^ f.prec := one_le_pow₀ (by norm_num)
      have := pow_pos f.emax
      apply mul_nonneg <;> linarith
    linarith
  unfold result
  rw [if_pos (by rw [← abs_srnd]; exact h), if_neg h0]

end Fmt

end Flut
