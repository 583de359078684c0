import Verif.Proofs.Random

/-! # Property theorems: the random number engine (C114) -/

namespace Flut

open Random

/-- After `n` draws the state is the seed times the `n`-th power of 16807, modulo the prime 2147483647. -/
theorem C114_values (s n : Nat) : next^[n] (seed s) = 16807 ^ n * seed s % 2147483647 := by
  apply cast_inj (iter_range (seed_range s) n).2 (Nat.mod_lt _ (by norm_num))
  rw [iter_cast, ZMod.natCast_mod]
  push_cast
  rfl

/-- A generator that was not seeded starts from 123. -/
theorem C114_default (n : Nat) : next^[n] initial = 16807 ^ n * 123 % 2147483647 := C114_values 123 n

theorem C114_prime : Nat.Prime 2147483647 := modulus_prime

/-- A call of the generator: seeding it or drawing a number. -/
inductive RandomCall where
  | seed (s : Nat)
  | draw

/-- The state after some calls, and all numbers that were drawn. -/
def randomRun : List RandomCall → Nat → List Nat × Nat
  | [], x => ([], x)
  | .seed s :: cs, _ => randomRun cs (Random.seed s)
  | .draw :: cs, x =>
    let r := randomRun cs (next x)
    (next x :: r.1, r.2)

/-- Whatever is done with a generator, all numbers drawn are between the smallest and the largest of the engine; it never gets stuck at zero. -/
theorem C114_range (s : Nat) (cs : List RandomCall) : ∀ y ∈ (randomRun cs (seed s)).1, 1 ≤ y ∧ y ≤ 2147483646 := by
  have key : ∀ (cs : List RandomCall) (x : Nat), (1 ≤ x ∧ x < 2147483647) → ∀ y ∈ (randomRun cs x).1, 1 ≤ y ∧ y ≤ 2147483646 := by
    intro cs
    induction cs with
    | nil => intro x _ y hy; simp [randomRun] at hy
    | cons c cs ih =>
      intro x hx y hy
      cases c with
      | seed s => exact ih _ (seed_range s) y hy
      | draw =>
        rcases List.mem_cons.1 hy with rfl | hy
        · have := next_range hx; omega
        · exact ih _ (next_range hx) y hy
  exact key cs _ (seed_range s)

/-- The sequence of any seed repeats after 2147483646 draws and not before. -/
theorem C114_period (s n : Nat) : next^[n] (seed s) = seed s ↔ 2147483646 ∣ n := by
  have := iter_eq_iff (seed_range s) n 0
  rw [Function.iterate_zero, id] at this
  rw [this, Nat.modEq_zero_iff_dvd]

/-- Every number from 1 to 2147483646 occurs exactly once in a period, whatever the seed. -/
theorem C114_once (s t : Nat) (h1 : 1 ≤ t) (h2 : t ≤ 2147483646) : ∃! n, n < 2147483646 ∧ next^[n] (seed s) = t := by
  obtain ⟨n, hn, e⟩ := iter_surj (seed_range s) (t := t) ⟨h1, by omega⟩
  refine ⟨n, ⟨hn, e⟩, ?_⟩
  rintro k ⟨hk, e'⟩
  exact Nat.ModEq.eq_of_lt_of_lt ((iter_eq_iff (seed_range s) k n).1 (e'.trans e.symm)) hk hn

/-- Full statement: generators with different seeds do not agree. -/
def SeedsDiffer : Prop := ∀ s t, s < 2 ^ 32 → t < 2 ^ 32 → (∀ n, next^[n + 1] (seed s) = next^[n + 1] (seed t)) → s = t

/-- Seeds 0 and 1 are the same, and so are 1 and 2147483648. -/
theorem C114_seeds_refuted : ¬ SeedsDiffer ∧ seed 0 = seed 1 ∧ seed 2147483648 = seed 1 := by
  refine ⟨fun h => ?_, by decide, by decide⟩
  have e : seed 0 = seed 1 := by decide
  have := h 0 1 (by norm_num) (by norm_num) (fun n => by rw [e])
  omega

/-- Seeds from 1 to 2147483646 give sequences that differ in every number. -/
theorem C114_seeds_partial (s t n : Nat) (hs : 1 ≤ s ∧ s ≤ 2147483646) (ht : 1 ≤ t ∧ t ≤ 2147483646)
    (h : next^[n] (seed s) = next^[n] (seed t)) : s = t := by
  have es : seed s = s := by unfold seed modulus; rw [Nat.mod_eq_of_lt (by omega), if_neg (by omega)]
  have et : seed t = t := by unfold seed modulus; rw [Nat.mod_eq_of_lt (by omega), if_neg (by omega)]
  rw [es, et] at h
  have h1 := congrArg (fun k : Nat => (k : ZMod 2147483647)) h
  simp only [iter_cast] at h1
  have hg : (16807 : ZMod 2147483647) ^ n ≠ 0 := by
    apply pow_ne_zero
    exact (IsUnit.of_pow_eq_one gen_one (by norm_num)).ne_zero
  exact cast_inj (by omega) (by omega) (mul_left_cancel₀ hg h1)

/-- Any two seeds give sequences that are the same, or differ in every number; they are the same exactly if the seeds differ by a
multiple of 2147483647, or are such multiples and one more than such multiples. -/
theorem C114_seeds (s t n : Nat) : next^[n] (seed s) = next^[n] (seed t) ↔
    s % 2147483647 = t % 2147483647 ∨ (s % 2147483647 ≤ 1 ∧ t % 2147483647 ≤ 1) := by
  have hs : 1 ≤ seed s ∧ seed s ≤ 2147483646 := by unfold seed modulus; split <;> omega
  have ht : 1 ≤ seed t ∧ seed t ≤ 2147483646 := by unfold seed modulus; split <;> omega
  have same : ∀ x, 1 ≤ x ∧ x ≤ 2147483646 → seed x = x := by
    intro x hx
    unfold seed modulus
    rw [Nat.mod_eq_of_lt (by omega), if_neg (by omega)]
  have key : seed s = seed t ↔ s % 2147483647 = t % 2147483647 ∨ (s % 2147483647 ≤ 1 ∧ t % 2147483647 ≤ 1) := by
    unfold seed modulus
    split <;> split <;> omega
  rw [← key]
  refine ⟨fun h => C114_seeds_partial _ _ n hs ht ?_, fun h => by rw [h]⟩
  rw [same _ hs, same _ ht]
  exact h

example : next^[3] (seed 5) ≠ next^[3] (seed 4294967295) := by
  rw [Ne, C114_seeds]
  decide

/-- The same seed gives the same numbers, also if the generator was used before. -/
theorem C114_reseed (s x : Nat) (before after : List RandomCall) :
    (randomRun (before ++ .seed s :: after) x).1 = (randomRun before x).1 ++ (randomRun after (seed s)).1 := by
  induction before generalizing x with
  | nil => rfl
  | cons c cs ih => cases c with
    | seed t => exact ih _
    | draw => simp only [randomRun, List.cons_append, ih]

/-- The first number of a small seed is small: all seeds up to 127773 draw the seed times 16807. -/
theorem C114_small_seeds (s : Nat) (h1 : 1 ≤ s) (h2 : s ≤ 127773) : next (seed s) = 16807 * s := by
  unfold next seed modulus
  rw [Nat.mod_eq_of_lt (by omega : s < 2147483647), if_neg (by omega), Nat.mod_eq_of_lt (by omega)]

example : (randomRun [.draw, .draw, .seed 7, .draw] initial).1 = [2067261, 384717275, 117649] := by decide +kernel

example : next^[10000] (seed 1) = 1043618065 := by decide +kernel

end Flut
