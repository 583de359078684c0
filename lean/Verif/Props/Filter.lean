import Verif.Model.FilterReal
import Verif.Props.Numeric
import Mathlib.Tactic.Positivity
import Mathlib.Analysis.SpecificLimits.Basic

/-!
# Filters and delayers (C68, C72)
-/

namespace Flut

section Iir

variable {K : Type} [Field K] [LinearOrder K]

/-! ## C68 -/

/-- Element `n - 1 - i` of a sequence, or zero before its begin. -/
def recent (l : List K) (n i : Nat) : K := if i < n then l.getD (n - 1 - i) 0 else 0

namespace Iir

omit [Field K] [LinearOrder K] in
theorem shiftLoop_eq (k : Nat) (v : Nat → K) (j : Nat) : shiftLoop k v j = if 1 ≤ j ∧ j ≤ k then v (j - 1) else v j := by
  induction k generalizing v with
  | zero => simp [shiftLoop]; intro h1 h2; omega
  | succ k ih =>
    rw [shiftLoop, ih]
    by_cases h1 : 1 ≤ j ∧ j ≤ k
    · rw [if_pos h1, if_neg (by omega : ¬ j - 1 = k + 1), if_pos (by omega : 1 ≤ j ∧ j ≤ k + 1)]
    · rw [if_neg h1]
      by_cases h2 : j = k + 1
      · rw [if_pos h2, if_pos (by omega : 1 ≤ j ∧ j ≤ k + 1), h2, Nat.add_sub_cancel]
      · rw [if_neg h2, if_neg (by omega : ¬ (1 ≤ j ∧ j ≤ k + 1))]

omit [LinearOrder K] in
theorem sumLoop_eq (f : Iir K) (n i : Nat) (y : K) :
    sumLoop f n i y = y + ∑ j ∈ Finset.range n, (f.b (i + j) * f.x (i + j) + f.a (i + j) * f.y (i + j)) := by
  induction n generalizing i y with
  | zero => simp [sumLoop]
  | succ n ih =>
    rw [sumLoop, ih, Finset.sum_range_succ']
    simp only [add_zero, Nat.add_assoc, Nat.add_comm 1]
    ring

omit [LinearOrder K] in
theorem step_fst (N : Nat) (f : Iir K) (x : K) :
    (step N f x).1 = f.b0 * x + ∑ i ∈ Finset.range N, (f.b i * f.x i + f.a i * f.y i) := by
  unfold step
  dsimp only
  rw [sumLoop_eq]
  simp

omit [LinearOrder K] in
/-- The elements in use after a step. -/
theorem step_x (N : Nat) (f : Iir K) (x : K) (i : Nat) (hi : i < N) :
    (step N f x).2.x i = (if i = 0 then x else f.x (i - 1)) ∧ (step N f x).2.y i = (if i = 0 then (step N f x).1 else f.y (i - 1)) := by
  unfold step setZero
  dsimp only
  rw [shiftLoop_eq, shiftLoop_eq]
  by_cases h : i = 0
  · simp [h]
  · have h' : 1 ≤ i ∧ i ≤ N - 1 := by omega
    simp only [h, h', if_false, if_true, and_self]

omit [LinearOrder K] in
/-- The outputs, from a filter that has seen a history, given with the latest first. -/
theorem run_spec (N : Nat) (xs hx hy : List K) (f : Iir K) (h : ∀ i < N, f.x i = hx.getD i 0 ∧ f.y i = hy.getD i 0) :
    (run N f xs).length = xs.length ∧ ∀ n (hn : n < xs.length), (run N f xs)[n]? = some (f.b0 * xs[n] +
      ∑ i ∈ Finset.range N, (f.b i * ((xs.take n).reverse ++ hx).getD i 0 + f.a i * (((run N f xs).take n).reverse ++ hy).getD i 0)) := by
  induction xs generalizing f hx hy with
  | nil => simp [run]
  | cons x xs ih =>
    have h' : ∀ i < N, (step N f x).2.x i = (x :: hx).getD i 0 ∧ (step N f x).2.y i = ((step N f x).1 :: hy).getD i 0 := by
      intro i hi
      rw [(step_x N f x i hi).1, (step_x N f x i hi).2]
      cases i with
      | zero => simp
      | succ i =>
        have := h i (by omega)
        simpa using this
    obtain ⟨hl, hs⟩ := ih (x :: hx) ((step N f x).1 :: hy) (step N f x).2 h'
    refine ⟨by simp [run, hl], ?_⟩
    intro n hn
    cases n with
    | zero =>
      simp only [run, List.take_zero, List.reverse_nil, List.nil_append, List.getElem?_cons_zero, List.getElem_cons_zero]
      rw [step_fst]
      congr 2
      apply Finset.sum_congr rfl
      intro i hi
      rw [(h i (Finset.mem_range.1 hi)).1, (h i (Finset.mem_range.1 hi)).2]
    | succ n =>
      have := hs n (by simpa using hn)
      simp only [run, List.getElem?_cons_succ, List.take_succ_cons, List.reverse_cons, List.append_assoc, List.singleton_append,
        List.getElem_cons_succ]
      rw [this]
      rfl

end Iir

omit [LinearOrder K] in
theorem recent_eq (l : List K) (n i : Nat) (hn : n ≤ l.length) : ((l.take n).reverse).getD i 0 = recent l n i := by
  unfold recent
  by_cases h : i < n
  · rw [if_pos h]
    simp only [List.getD_eq_getElem?_getD]
    rw [List.getElem?_reverse (by simp; omega)]
    simp only [List.length_take, List.getElem?_take]
    rw [if_pos (by omega), Nat.min_eq_left hn]
  · rw [if_neg h]
    rw [List.getD_eq_getElem?_getD, List.getElem?_eq_none (by simp; omega)]
    rfl

omit [LinearOrder K] in
/-- The outputs satisfy the difference equation, with zeros before the first input. -/
theorem C68_difference_equation (N : Nat) (b0 : K) (b a : Nat → K) (xs : List K) :
    (Iir.run N (Iir.new b0 b a) xs).length = xs.length ∧ ∀ n (hn : n < xs.length),
      (Iir.run N (Iir.new b0 b a) xs)[n]? = some (b0 * xs[n] +
        ∑ i ∈ Finset.range N, (b i * recent xs n i + a i * recent (Iir.run N (Iir.new b0 b a) xs) n i)) := by
  obtain ⟨hl, hs⟩ := Iir.run_spec N xs [] [] (Iir.new b0 b a) (by simp [Iir.new])
  refine ⟨hl, fun n hn => ?_⟩
  rw [hs n hn]
  simp only [List.append_nil]
  congr 2
  apply Finset.sum_congr rfl
  intro i _
  rw [recent_eq _ _ _ (by omega), recent_eq _ _ _ (by omega)]
  rfl

example : Iir.run 1 (Iir.new (1 : ℚ) (fun _ => 2) (fun _ => 3)) [1, 0, 1] = [1, 5, 16] := by decide +kernel

omit [LinearOrder K] in
/-- Linear in the input. -/
theorem C68_linear (N : Nat) (b0 p q : K) (b a : Nat → K) (xs ys : List K) :
    Iir.run N (Iir.new b0 b a) (List.zipWith (fun x y => p * x + q * y) xs ys) =
      List.zipWith (fun x y => p * x + q * y) (Iir.run N (Iir.new b0 b a) xs) (Iir.run N (Iir.new b0 b a) ys) := by
  have key : ∀ (xs ys : List K) (f g h : Iir K), h.b0 = b0 ∧ f.b0 = b0 ∧ g.b0 = b0 → h.b = b ∧ f.b = b ∧ g.b = b → h.a = a ∧ f.a = a ∧ g.a = a →
      (∀ i < N, h.x i = p * f.x i + q * g.x i ∧ h.y i = p * f.y i + q * g.y i) →
      Iir.run N h (List.zipWith (fun x y => p * x + q * y) xs ys) = List.zipWith (fun x y => p * x + q * y) (Iir.run N f xs) (Iir.run N g ys) := by
    intro xs
    induction xs with
    | nil => intro ys f g h _ _ _ _; simp [Iir.run]
    | cons x xs ih =>
      intro ys f g h h1 h2 h3 h4
      cases ys with
      | nil => simp [Iir.run]
      | cons y ys =>
        have e : (Iir.step N h (p * x + q * y)).1 = p * (Iir.step N f x).1 + q * (Iir.step N g y).1 := by
          rw [Iir.step_fst, Iir.step_fst, Iir.step_fst, h1.1, h1.2.1, h1.2.2, h2.1, h2.2.1, h2.2.2, h3.1, h3.2.1, h3.2.2]
          have : ∑ i ∈ Finset.range N, (b i * h.x i + a i * h.y i) =
              p * ∑ i ∈ Finset.range N, (b i * f.x i + a i * f.y i) + q * ∑ i ∈ Finset.range N, (b i * g.x i + a i * g.y i) := by
            rw [Finset.mul_sum, Finset.mul_sum, ← Finset.sum_add_distrib]
            apply Finset.sum_congr rfl
            intro i hi
            rw [(h4 i (Finset.mem_range.1 hi)).1, (h4 i (Finset.mem_range.1 hi)).2]
            ring
          rw [this]
          ring
        simp only [List.zipWith_cons_cons, Iir.run]
        rw [e, ih ys (Iir.step N f x).2 (Iir.step N g y).2 (Iir.step N h (p * x + q * y)).2 h1 h2 h3]
        intro i hi
        rw [(Iir.step_x N h _ i hi).1, (Iir.step_x N h _ i hi).2, (Iir.step_x N f x i hi).1, (Iir.step_x N f x i hi).2,
          (Iir.step_x N g y i hi).1, (Iir.step_x N g y i hi).2]
        by_cases hi0 : i = 0
        · simp [hi0, e]
        · simp only [if_neg hi0]
          exact h4 (i - 1) (by omega)
  exact key xs ys _ _ _ ⟨rfl, rfl, rfl⟩ ⟨rfl, rfl, rfl⟩ ⟨rfl, rfl, rfl⟩ (by simp [Iir.new])

omit [LinearOrder K] in
/-- Delaying the input by zeros delays the output by as many zeros. -/
theorem C68_time_invariant (N k : Nat) (b0 : K) (b a : Nat → K) (xs : List K) :
    Iir.run N (Iir.new b0 b a) (List.replicate k 0 ++ xs) = List.replicate k 0 ++ Iir.run N (Iir.new b0 b a) xs := by
  induction k with
  | zero => simp
  | succ k ih =>
    have h1 : (Iir.step N (Iir.new b0 b a) 0).1 = 0 := by rw [Iir.step_fst]; simp [Iir.new]
    have h2 : (Iir.step N (Iir.new b0 b a) 0).2 = Iir.new b0 b a := by
      have h0 : Iir.sumLoop (Iir.new b0 b a) N 0 ((Iir.new b0 b a).b0 * 0) = 0 := h1
      have hz : ∀ m, Iir.setZero (Iir.shiftLoop m fun _ : Nat => (0 : K)) 0 = fun _ => 0 := by
        intro m
        funext j
        unfold Iir.setZero
        rw [Iir.shiftLoop_eq]
        simp
      unfold Iir.step
      simp only [h0]
      unfold Iir.new
      simp only [hz]
    rw [List.replicate_succ, List.cons_append, List.cons_append, ← ih]
    show (Iir.step N (Iir.new b0 b a) 0).1 :: Iir.run N (Iir.step N (Iir.new b0 b a) 0).2 _ = _
    rw [h1, h2]

end Iir

/-! ### Butterworth -/

/-- The inverse of the tangent used by the Butterworth filter is positive for cutoff frequencies below half the sample rate. -/
theorem ita_pos (r : ℝ) (h0 : 0 < r) (h1 : r < 1 / 2) : 0 < 1 / Real.tan (Real.pi * r) := by
  apply one_div_pos.2
  apply Real.tan_pos_of_pos_of_lt_pi_div_two
  · exact mul_pos Real.pi_pos h0
  · nlinarith [Real.pi_pos]

theorem butter_den_pos (t : ℝ) : 0 < 1 + Real.sqrt 2 * t + t * t := by
  have h : Real.sqrt 2 * Real.sqrt 2 = 2 := Real.mul_self_sqrt (by norm_num)
  nlinarith [sq_nonneg (t + Real.sqrt 2 / 2)]

/-- The filter only has two elements of history. -/
def sumCoeff (b : Nat → ℝ) : ℝ := b 0 + b 1

/-- Unit gain for constant input: the numerator and denominator of the transfer function agree at zero frequency. -/
theorem C68_butterworth_gain (r : ℝ) :
    (butterworth r).b0 + sumCoeff (butterworth r).b = 1 - sumCoeff (butterworth r).a ∧ (butterworth r).b0 + sumCoeff (butterworth r).b ≠ 0 := by
  have h := butter_den_pos (1 / Real.tan (Real.pi * r))
  unfold butterworth sumCoeff Iir.new
  dsimp only
  simp only [if_true, one_ne_zero, if_false]
  set t := 1 / Real.tan (Real.pi * r)
  constructor
  · obtain ⟨D, hD⟩ : ∃ D, D = 1 + Real.sqrt 2 * t + t * t := ⟨_, rfl⟩
    rw [← hD] at h ⊢
    have h' := h.ne'
    generalize Real.sqrt 2 = q at *
    field_simp
    linarith
  · have : 0 < 1 / (1 + Real.sqrt 2 * t + t * t) := one_div_pos.2 h
    positivity

/-- The value after `n` further samples `c`. -/
noncomputable def butterOut (f : Iir ℝ) (c : ℝ) (n : Nat) : ℝ := (Iir.after 2 f (List.replicate n c)).y 0

theorem after_append (N : Nat) (f : Iir ℝ) (l l' : List ℝ) : Iir.after N f (l ++ l') = Iir.after N (Iir.after N f l) l' := by
  induction l generalizing f with
  | nil => rfl
  | cons x l ih => exact ih _

/-- The error obeys the homogeneous recurrence once the inputs in the history are constant. -/
theorem butter_energy (a0 a1 c : ℝ) (f : Iir ℝ) (b0 : ℝ) (b : Nat → ℝ) (ha : f.a 0 = a0 ∧ f.a 1 = a1) (hb : f.b0 = b0 ∧ f.b 0 = b 0 ∧ f.b 1 = b 1)
    (hg : b0 + b 0 + b 1 = 1 - a0 - a1) (hx : f.x 0 = c ∧ f.x 1 = c) :
    (Iir.step 2 f c).2.a = f.a ∧ (Iir.step 2 f c).2.b = f.b ∧ (Iir.step 2 f c).2.b0 = f.b0 ∧
    ((Iir.step 2 f c).2.x 0 = c ∧ (Iir.step 2 f c).2.x 1 = c) ∧
    ((Iir.step 2 f c).2.y 0 - c) ^ 2 - a0 * ((Iir.step 2 f c).2.y 0 - c) * ((Iir.step 2 f c).2.y 1 - c) - a1 * ((Iir.step 2 f c).2.y 1 - c) ^ 2 =
      -a1 * ((f.y 0 - c) ^ 2 - a0 * (f.y 0 - c) * (f.y 1 - c) - a1 * (f.y 1 - c) ^ 2) := by
  have h0 := Iir.step_x 2 f c 0 (by decide)
  have h1 := Iir.step_x 2 f c 1 (by decide)
  simp only [if_true, one_ne_zero, if_false, Nat.sub_self] at h0 h1
  refine ⟨rfl, rfl, rfl, ⟨h0.1, by rw [h1.1, hx.1]⟩, ?_⟩
  rw [h0.2, h1.2, Iir.step_fst]
  simp only [Finset.sum_range_succ, Finset.sum_range_zero, zero_add]
  rw [ha.1, ha.2, hb.1, hb.2.1, hb.2.2, hx.1, hx.2]
  have e : b0 * c + (b 0 * c + a0 * f.y 0 + (b 1 * c + a1 * f.y 1)) - c = a0 * (f.y 0 - c) + a1 * (f.y 1 - c) := by
    have : b0 = 1 - a0 - a1 - b 0 - b 1 := by linarith
    rw [this]
    ring
  rw [e]
  ring

theorem energy_bound (a0 a1 u v : ℝ) : v ^ 2 * (-a1 - a0 ^ 2 / 4) ≤ u ^ 2 - a0 * u * v - a1 * v ^ 2 := by
  nlinarith [sq_nonneg (u - a0 / 2 * v)]

/-- From any state, a constant input makes the output converge to this constant. -/
theorem C68_butterworth_converges (r : ℝ) (h0 : 0 < r) (h1 : r < 1 / 2) (l : List ℝ) (c : ℝ) :
    Filter.Tendsto (butterOut (Iir.after 2 (butterworth r) l) c) Filter.atTop (nhds c) := by
  set t := 1 / Real.tan (Real.pi * r) with ht
  have tpos : 0 < t := ita_pos r h0 h1
  have hD := butter_den_pos t
  have hq : Real.sqrt 2 * Real.sqrt 2 = 2 := Real.mul_self_sqrt (by norm_num)
  have hqpos : 0 < Real.sqrt 2 := Real.sqrt_pos.2 (by norm_num)
  set D := 1 + Real.sqrt 2 * t + t * t with hDd
  set a0 : ℝ := 2 * (t * t - 1) * (1 / D) with ha0
  set a1 : ℝ := -(1 - Real.sqrt 2 * t + t * t) * (1 / D) with ha1
  have hgain := (C68_butterworth_gain r).1
  -- coefficients never change
  have hcoef : ∀ (l : List ℝ) (f : Iir ℝ), (Iir.after 2 f l).a = f.a ∧ (Iir.after 2 f l).b = f.b ∧ (Iir.after 2 f l).b0 = f.b0 := by
    intro l
    induction l with
    | nil => intro f; exact ⟨rfl, rfl, rfl⟩
    | cons x l ih =>
      intro f
      obtain ⟨e1, e2, e3⟩ := ih (Iir.step 2 f x).2
      exact ⟨e1, e2, e3⟩
  obtain ⟨g1, g2, g3⟩ := hcoef l (butterworth r)
  set f := Iir.after 2 (butterworth r) l with hf
  have hfa : f.a 0 = a0 ∧ f.a 1 = a1 := by rw [g1]; exact ⟨rfl, rfl⟩
  have hgain' : f.b0 + f.b 0 + f.b 1 = 1 - a0 - a1 := by
    rw [g2, g3]
    unfold sumCoeff at hgain
    have e0 : (butterworth r).a 0 = a0 := rfl
    have e1 : (butterworth r).a 1 = a1 := rfl
    rw [e0, e1] at hgain
    linarith
  -- energy
  let V : Iir ℝ → ℝ := fun g => (g.y 0 - c) ^ 2 - a0 * (g.y 0 - c) * (g.y 1 - c) - a1 * (g.y 1 - c) ^ 2
  let S : Nat → Iir ℝ := fun n => Iir.after 2 f (List.replicate n c)
  have hS : ∀ n, S (n + 1) = (Iir.step 2 (S n) c).2 := by
    intro n
    show Iir.after 2 f (List.replicate (n + 1) c) = _
    rw [List.replicate_succ', after_append]
    rfl
  have hSc : ∀ n, (S n).a = f.a ∧ (S n).b = f.b ∧ (S n).b0 = f.b0 := fun n => hcoef _ f
  have hx : ∀ n, (S (n + 2)).x 0 = c ∧ (S (n + 2)).x 1 = c := by
    intro n
    have e1 := Iir.step_x 2 (S (n + 1)) c 0 (by decide)
    have e2 := Iir.step_x 2 (S (n + 1)) c 1 (by decide)
    have e3 := Iir.step_x 2 (S n) c 0 (by decide)
    simp only [if_true, one_ne_zero, if_false, Nat.sub_self] at e1 e2 e3
    rw [hS (n + 1)]
    refine ⟨e1.1, ?_⟩
    rw [e2.1, hS n, e3.1]
  have hV : ∀ n, V (S (n + 2)) = (-a1) ^ n * V (S 2) := by
    intro n
    induction n with
    | zero => simp
    | succ n ih =>
      have he := (butter_energy a0 a1 c (S (n + 2)) f.b0 f.b (by rw [(hSc _).1]; exact hfa)
        (by rw [(hSc _).2.1, (hSc _).2.2]; exact ⟨rfl, rfl, rfl⟩) hgain' (hx n)).2.2.2.2
      rw [← hS (n + 2)] at he
      have he : V (S (n + 2 + 1)) = -a1 * V (S (n + 2)) := he
      rw [show n + 1 + 2 = n + 2 + 1 by omega, he, ih]
      ring
  have hm : 0 < -a1 - a0 ^ 2 / 4 := by
    have e : -a1 - a0 ^ 2 / 4 = 2 * t ^ 2 / D ^ 2 := by
      have hD' := hD.ne'
      have e1 : (1 - Real.sqrt 2 * t + t * t) * D = (1 + t * t) ^ 2 - 2 * t ^ 2 := by
        rw [hDd]
        linear_combination (-t ^ 2) * hq
      have e2 : -a1 - a0 ^ 2 / 4 = ((1 - Real.sqrt 2 * t + t * t) * D - (t * t - 1) ^ 2) / D ^ 2 := by
        rw [ha0, ha1]
        clear_value D
        field_simp
        ring
      rw [e2, e1]
      congr 1
      ring
    rw [e]
    positivity
  have ha1pos : 0 ≤ -a1 := by nlinarith [sq_nonneg a0]
  have ha1lt : -a1 < 1 := by
    have e : -a1 = (1 - Real.sqrt 2 * t + t * t) / D := by rw [ha1]; ring
    rw [e, div_lt_one hD, hDd]
    nlinarith [mul_pos hqpos tpos]
  -- the error squared is bounded by the energy
  have hbound : ∀ n, (butterOut f c (n + 2) - c) ^ 2 ≤ (-a1) ^ n * ((-a1) * V (S 2) / (-a1 - a0 ^ 2 / 4)) := by
    intro n
    have h1 : (S (n + 3)).y 1 = (S (n + 2)).y 0 := by
      have e2 := Iir.step_x 2 (S (n + 2)) c 1 (by decide)
      simp only [one_ne_zero, if_false, Nat.sub_self] at e2
      rw [hS (n + 2)]
      exact e2.2
    have h2 := hV (n + 1)
    have h3 : V (S (n + 3)) = ((S (n + 3)).y 0 - c) ^ 2 - a0 * ((S (n + 3)).y 0 - c) * ((S (n + 3)).y 1 - c) - a1 * ((S (n + 3)).y 1 - c) ^ 2 := rfl
    have h4 : butterOut f c (n + 2) = (S (n + 2)).y 0 := rfl
    rw [h4, ← h1, ← mul_div_assoc, le_div_iff₀ hm, ← mul_assoc, ← pow_succ, ← h2, show n + 1 + 2 = n + 3 by omega, h3]
    exact energy_bound _ _ _ _
  -- conclude
  rw [← Filter.tendsto_add_atTop_iff_nat 2]
  have hlim : Filter.Tendsto (fun n => (-a1) ^ n * ((-a1) * V (S 2) / (-a1 - a0 ^ 2 / 4))) Filter.atTop (nhds 0) := by
    have := (tendsto_pow_atTop_nhds_zero_of_lt_one ha1pos ha1lt).mul_const ((-a1) * V (S 2) / (-a1 - a0 ^ 2 / 4))
    simpa using this
  have hsq : Filter.Tendsto (fun n => (butterOut f c (n + 2) - c) ^ 2) Filter.atTop (nhds 0) :=
    tendsto_of_tendsto_of_tendsto_of_le_of_le tendsto_const_nhds hlim (fun n => sq_nonneg _) hbound
  have habs : Filter.Tendsto (fun n => |butterOut f c (n + 2) - c|) Filter.atTop (nhds 0) := by
    have := hsq.sqrt
    simpa [Real.sqrt_sq_eq_abs] using this
  have hsub := (tendsto_zero_iff_abs_tendsto_zero _).2 habs
  have := hsub.add_const c
  simpa using this

/-- The value reported is the one the last call returned. -/
theorem C68_last_output {K : Type} [Field K] (N : Nat) (f : Iir K) (x : K) (hN : 0 < N) : (Iir.step N f x).2.y 0 = (Iir.step N f x).1 := by
  rw [(Iir.step_x N f x 0 hN).2, if_pos rfl]

end Flut
