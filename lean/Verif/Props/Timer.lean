import Verif.Model.Timer
import Mathlib.Tactic.Linarith
import Mathlib.Tactic.Ring
import Mathlib.Tactic.NormNum
import Mathlib.Data.Rat.Floor

/-! # C96: elapsed time in every unit -/

namespace Flut

theorem int64_ok {x : Int} (h : -2 ^ 63 ≤ x ∧ x < 2 ^ 63) : int64 x = .ok x := if_pos h

/-- A clock that shows `now`, later than when the timer was started or reset: nanoseconds are the difference, micro- and
milliseconds its whole part in these units, seconds, minutes and hours the difference in these units. -/
theorem C96_units (t : Timer) (now : Int) (h0 : t.epoch ≤ now) (h1 : now - t.epoch < 2 ^ 63) :
    t.nanoseconds now = .ok (now - t.epoch) ∧
    (∃ u, t.microseconds now = .ok u ∧ 1000 * u ≤ now - t.epoch ∧ now - t.epoch < 1000 * (u + 1)) ∧
    (∃ m, t.milliseconds now = .ok m ∧ 1000000 * m ≤ now - t.epoch ∧ now - t.epoch < 1000000 * (m + 1)) ∧
    (∃ s, t.seconds now = .ok s ∧ s * 1000000000 = ((now - t.epoch : Int) : Rat)) ∧
    (∃ s m, t.seconds now = .ok s ∧ t.minutes now = .ok m ∧ m * 60 = s) ∧
    (∃ m h, t.minutes now = .ok m ∧ t.hours now = .ok h ∧ h * 60 = m) := by
  have e : t.nanoseconds now = .ok (now - t.epoch) := int64_ok ⟨by omega, h1⟩
  have hd : ∀ k : Int, 0 < k → k * (now - t.epoch).tdiv k ≤ now - t.epoch ∧ now - t.epoch < k * ((now - t.epoch).tdiv k + 1) := by
    intro k hk
    rw [Int.tdiv_eq_ediv_of_nonneg (by omega)]
    have h1 := Int.mul_ediv_add_emod (now - t.epoch) k
    have h2 := Int.emod_nonneg (now - t.epoch) hk.ne'
    have h3 := Int.emod_lt_of_pos (now - t.epoch) hk
    rw [Int.mul_add]
    omega
  simp only [Timer.microseconds, Timer.milliseconds, Timer.seconds, Timer.minutes, Timer.hours, e, Res.bind_ok]
  refine ⟨trivial, ⟨_, rfl, hd 1000 (by norm_num)⟩, ⟨_, rfl, hd 1000000 (by norm_num)⟩, ⟨_, rfl, by ring⟩, ⟨_, _, rfl, rfl, by ring⟩,
    ⟨_, _, rfl, rfl, by ring⟩⟩

/-- Readings of the same timer never decrease while the clock does not. -/
theorem C96_monotone (t : Timer) (now later : Int) (h0 : t.epoch ≤ now) (h1 : now ≤ later) (h2 : later - t.epoch < 2 ^ 63) :
    ∃ u v m n s r, t.microseconds now = .ok u ∧ t.microseconds later = .ok v ∧ u ≤ v ∧
      t.milliseconds now = .ok m ∧ t.milliseconds later = .ok n ∧ m ≤ n ∧
      t.seconds now = .ok s ∧ t.seconds later = .ok r ∧ s ≤ r := by
  have e1 : t.nanoseconds now = .ok (now - t.epoch) := int64_ok ⟨by omega, by omega⟩
  have e2 : t.nanoseconds later = .ok (later - t.epoch) := int64_ok ⟨by omega, h2⟩
  have hd : ∀ k : Int, 0 < k → (now - t.epoch).tdiv k ≤ (later - t.epoch).tdiv k := by
    intro k hk
    rw [Int.tdiv_eq_ediv_of_nonneg (by omega), Int.tdiv_eq_ediv_of_nonneg (by omega)]
    exact Int.ediv_le_ediv hk (by omega)
  simp only [Timer.microseconds, Timer.milliseconds, Timer.seconds, e1, e2, Res.bind_ok]
  refine ⟨_, _, _, _, _, _, rfl, rfl, hd 1000 (by norm_num), rfl, rfl, hd 1000000 (by norm_num), rfl, rfl, ?_⟩
  have : ((now - t.epoch : Int) : Rat) ≤ ((later - t.epoch : Int) : Rat) := Int.cast_le.2 (by omega)
  linarith

example : (Timer.mk 5).milliseconds 2999999 = .ok 2 ∧ (Timer.mk 5).microseconds 2999999 = .ok 2999 ∧
    (Timer.mk 0).minutes 90000000000 = .ok (3 / 2) := by decide +kernel

/-- The clock for old compilers shows the time of the counter in whole nanoseconds, as long as the count times a billion fits
64 bits. -/
theorem C96_counter (count freq : Int) (h0 : 0 ≤ count) (hf : 0 < freq) (h : count * 1000000000 < 2 ^ 63) :
    ∃ ns, counterNow count freq = .ok ns ∧ (ns : Rat) ≤ (count : Rat) / freq * 1000000000 ∧
      (count : Rat) / freq * 1000000000 < ns + 1 := by
  have hq : (0 : Rat) < freq := Int.cast_pos.2 hf
  refine ⟨(count * 1000000000) / freq, ?_, ?_⟩
  · unfold counterNow
    rw [int64_ok ⟨by omega, h⟩, Res.bind_ok, if_neg hf.ne', Int.tdiv_eq_ediv_of_nonneg (by omega)]
  · have e : (count : Rat) / freq * 1000000000 = ((count * 1000000000 : Int) : Rat) / (freq : Rat) := by push_cast; ring
    rw [e]
    have h1 := Int.mul_ediv_add_emod (count * 1000000000) freq
    have h2 := Int.emod_nonneg (count * 1000000000) hf.ne'
    have h3 := Int.emod_lt_of_pos (count * 1000000000) hf
    generalize (count * 1000000000) / freq = q at *
    generalize (count * 1000000000) % freq = r at *
    constructor
    · rw [le_div_iff₀ hq]
      have : q * freq ≤ count * 1000000000 := by linarith [Int.mul_comm q freq]
      exact_mod_cast this
    · rw [div_lt_iff₀ hq]
      have : count * 1000000000 < (q + 1) * freq := by linarith [Int.mul_comm q freq, Int.add_mul q 1 freq]
      exact_mod_cast this

/-- After that it is undefined: with ten million counts a second after a little more than fifteen minutes. -/
theorem C96_counter_refuted : (∀ count freq : Int, 2 ^ 63 ≤ count * 1000000000 → counterNow count freq = .ub) ∧
    counterNow (10000000 * 922) 10000000 = .ok 922000000000 ∧ counterNow (10000000 * 923) 10000000 = .ub := by
  refine ⟨fun count freq h => ?_, by decide +kernel, by decide +kernel⟩
  unfold counterNow int64
  rw [if_neg (by omega)]
  rfl

end Flut
