import Verif.Model.Random
import Mathlib.NumberTheory.LucasPrimality
import Mathlib.GroupTheory.OrderOfElement
import Mathlib.FieldTheory.Finite.Basic

/-! # Powers modulo a prime -/

namespace Flut

namespace Random

/-- Powers modulo `m`, by repeated squaring. -/
def powMod (m : Nat) : Nat → Nat → Nat → Nat
  | 0, _, _ => 1 % m
  | k + 1, b, n => if n % 2 = 1 then b * powMod m k (b * b % m) (n / 2) % m else powMod m k (b * b % m) (n / 2)

theorem powMod_eq (m : Nat) : ∀ k b n, n < 2 ^ k → powMod m k b n = b ^ n % m
  | 0, b, n, h => by
    have : n = 0 := by simpa using h
    subst this
    rfl
  | k + 1, b, n, h => by
    have ih := powMod_eq m k (b * b % m) (n / 2) (by rw [pow_succ] at h; omega)
    rw [← Nat.pow_mod, ← pow_two, ← pow_mul] at ih
    unfold powMod
    rw [← pow_two b, ih]
    split
    · rename_i h1
      rw [Nat.mul_mod, Nat.mod_mod, ← Nat.mul_mod, ← pow_succ']
      congr 2
      omega
    · congr 2
      omega

theorem pow_zmod {m b n r : Nat} (k : Nat) (h : n < 2 ^ k) (hr : powMod m k b n = r) : (b : ZMod m) ^ n = (r : ZMod m) := by
  rw [← hr, powMod_eq m k b n h, ZMod.natCast_mod, Nat.cast_pow]

theorem primes_of : ∀ q, q.Prime → q ∣ 2147483646 → q = 2 ∨ q = 3 ∨ q = 7 ∨ q = 11 ∨ q = 31 ∨ q = 151 ∨ q = 331 := by
  intro q hq h
  have e : 2147483646 = 2 * (3 * (3 * (7 * (11 * (31 * (151 * 331)))))) := by norm_num
  rw [e] at h
  have key : ∀ p, p.Prime → q ∣ p → q = p := fun p hp h => (Nat.prime_dvd_prime_iff_eq hq hp).1 h
  have p2 : Nat.Prime 2 := Nat.prime_two
  have p3 : Nat.Prime 3 := Nat.prime_three
  have p7 : Nat.Prime 7 := by decide
  have p11 : Nat.Prime 11 := by decide
  have p31 : Nat.Prime 31 := by decide +kernel
  have p151 : Nat.Prime 151 := by decide +kernel
  have p331 : Nat.Prime 331 := by decide +kernel
  rcases hq.dvd_mul.1 h with h | h
  · exact .inl (key _ p2 h)
  rcases hq.dvd_mul.1 h with h | h
  · exact .inr (.inl (key _ p3 h))
  rcases hq.dvd_mul.1 h with h | h
  · exact .inr (.inl (key _ p3 h))
  rcases hq.dvd_mul.1 h with h | h
  · exact .inr (.inr (.inl (key _ p7 h)))
  rcases hq.dvd_mul.1 h with h | h
  · exact .inr (.inr (.inr (.inl (key _ p11 h))))
  rcases hq.dvd_mul.1 h with h | h
  · exact .inr (.inr (.inr (.inr (.inl (key _ p31 h)))))
  rcases hq.dvd_mul.1 h with h | h
  · exact .inr (.inr (.inr (.inr (.inr (.inl (key _ p151 h))))))
  · exact .inr (.inr (.inr (.inr (.inr (.inr (key _ p331 h))))))

theorem nat_ne_one {r : Nat} (h1 : r ≠ 1) (h : r < 2147483647) : (r : ZMod 2147483647) ≠ 1 := by
  intro e
  have : ((r : Nat) : ZMod 2147483647) = ((1 : Nat) : ZMod 2147483647) := by rw [e, Nat.cast_one]
  rw [ZMod.natCast_eq_natCast_iff] at this
  exact h1 (Nat.ModEq.eq_of_lt_of_lt this h (by norm_num))

theorem gen_one : (16807 : ZMod 2147483647) ^ 2147483646 = 1 := by
  have := pow_zmod (m := 2147483647) (b := 16807) (n := 2147483646) (r := 1) 31 (by norm_num) (by decide +kernel)
  simpa using this

theorem gen_ne (q : Nat) (hq : q.Prime) (h : q ∣ 2147483646) : (16807 : ZMod 2147483647) ^ (2147483646 / q) ≠ 1 := by
  have key : ∀ n, n < 2 ^ 31 → powMod 2147483647 31 16807 n ≠ 1 ∧ powMod 2147483647 31 16807 n < 2147483647 →
      (16807 : ZMod 2147483647) ^ n ≠ 1 := by
    intro n hn hr
    have := pow_zmod (m := 2147483647) (b := 16807) (n := n) 31 hn rfl
    have e : ((16807 : Nat) : ZMod 2147483647) = 16807 := by norm_cast
    rw [e] at this
    rw [this]
    exact nat_ne_one hr.1 hr.2
  rcases primes_of q hq h with rfl | rfl | rfl | rfl | rfl | rfl | rfl <;> exact key _ (by norm_num) (by decide +kernel)

theorem modulus_prime : Nat.Prime 2147483647 := lucas_primality _ 16807 gen_one gen_ne

instance : Fact (Nat.Prime 2147483647) := ⟨modulus_prime⟩

/-- 16807 generates all numbers that are not zero. -/
theorem gen_order : orderOf (16807 : ZMod 2147483647) = 2147483646 := orderOf_eq_of_pow_and_pow_div_prime (by norm_num) gen_one gen_ne

theorem next_cast (x : Nat) : ((next x : Nat) : ZMod 2147483647) = 16807 * x := by
  unfold next modulus
  rw [ZMod.natCast_mod]
  push_cast
  ring

theorem iter_cast (x n : Nat) : ((next^[n] x : Nat) : ZMod 2147483647) = 16807 ^ n * x := by
  induction n with
  | zero => simp
  | succ n ih => rw [Function.iterate_succ_apply', next_cast, ih, pow_succ']; ring

theorem cast_ne_zero {x : Nat} (h : 1 ≤ x ∧ x < 2147483647) : (x : ZMod 2147483647) ≠ 0 := by
  intro e
  rw [ZMod.natCast_eq_zero_iff] at e
  exact absurd (Nat.le_of_dvd (by omega) e) (by omega)

theorem cast_inj {x y : Nat} (hx : x < 2147483647) (hy : y < 2147483647) (h : (x : ZMod 2147483647) = y) : x = y := by
  rw [ZMod.natCast_eq_natCast_iff] at h
  exact Nat.ModEq.eq_of_lt_of_lt h hx hy

theorem next_range {x : Nat} (h : 1 ≤ x ∧ x < 2147483647) : 1 ≤ next x ∧ next x < 2147483647 := by
  have h2 : next x < 2147483647 := Nat.mod_lt _ (by decide)
  refine ⟨?_, h2⟩
  rcases Nat.eq_zero_or_pos (next x) with h0 | h0
  · have := next_cast x
    rw [h0, Nat.cast_zero] at this
    have h3 := cast_ne_zero h
    have h4 : (16807 : ZMod 2147483647) ≠ 0 := by
      intro e
      have := gen_one
      rw [e, zero_pow (by norm_num)] at this
      exact zero_ne_one this
    exact absurd this.symm (mul_ne_zero h4 h3)
  · exact h0

theorem iter_range {x : Nat} (h : 1 ≤ x ∧ x < 2147483647) (n : Nat) : 1 ≤ next^[n] x ∧ next^[n] x < 2147483647 := by
  induction n with
  | zero => exact h
  | succ n ih => rw [Function.iterate_succ_apply']; exact next_range ih

theorem seed_range (s : Nat) : 1 ≤ seed s ∧ seed s < 2147483647 := by
  unfold seed modulus
  split <;> omega

theorem iter_eq_iff {x : Nat} (h : 1 ≤ x ∧ x < 2147483647) (n k : Nat) :
    next^[n] x = next^[k] x ↔ n ≡ k [MOD 2147483646] := by
  have e : next^[n] x = next^[k] x ↔ (16807 : ZMod 2147483647) ^ n * x = 16807 ^ k * x := by
    rw [← iter_cast, ← iter_cast]
    exact ⟨fun h => by rw [h], fun h' => cast_inj (iter_range h n).2 (iter_range h k).2 h'⟩
  rw [e, mul_left_inj' (cast_ne_zero h)]
  have hg : IsUnit (16807 : ZMod 2147483647) := IsUnit.of_pow_eq_one gen_one (by norm_num)
  obtain ⟨u, hu⟩ := hg
  have ho : orderOf u = 2147483646 := by rw [← orderOf_units, hu, gen_order]
  rw [← hu, ← Units.val_pow_eq_pow_val, ← Units.val_pow_eq_pow_val, Units.val_inj, pow_eq_pow_iff_modEq, ho]

theorem iter_surj {x t : Nat} (h : 1 ≤ x ∧ x < 2147483647) (ht : 1 ≤ t ∧ t < 2147483647) :
    ∃ n < 2147483646, next^[n] x = t := by
  have hs : (Finset.range 2147483646).image (fun n => next^[n] x) ⊆ Finset.Icc 1 2147483646 := by
    intro y hy
    obtain ⟨n, -, rfl⟩ := Finset.mem_image.1 hy
    have := iter_range h n
    exact Finset.mem_Icc.2 ⟨this.1, by omega⟩
  have hc : ((Finset.range 2147483646).image (fun n => next^[n] x)).card = 2147483646 := by
    rw [Finset.card_image_of_injOn, Finset.card_range]
    intro a ha b hb e
    have := (iter_eq_iff h a b).1 e
    exact Nat.ModEq.eq_of_lt_of_lt this (Finset.mem_range.1 ha) (Finset.mem_range.1 hb)
  have := Finset.eq_of_subset_of_card_le hs (by rw [hc, Nat.card_Icc])
  have hm : t ∈ Finset.Icc 1 2147483646 := Finset.mem_Icc.2 ⟨ht.1, by omega⟩
  rw [← this] at hm
  obtain ⟨n, hn, e⟩ := Finset.mem_image.1 hm
  exact ⟨n, Finset.mem_range.1 hn, e⟩

end Random

end Flut
