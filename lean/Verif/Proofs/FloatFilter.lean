import Verif.Model.FloatFilter
import Verif.Spec.FloatFilter
import Verif.Proofs.FloatSpline
import Verif.Props.Filter
import Verif.Props.FloatProducts

/-! # Lemmas about filters in floating-point arithmetic -/

namespace Flut

open Spec FloatMath Finset

/-! ## Sequences -/

/-- What a recursion gives is the weighted sum of its inputs, with the response to a single one as weights. -/
theorem response_sum {N : Nat} {a h d e : Nat → ℚ} (hh : Response N a h) (L : Nat) (he : ∀ n < L, e n = d n + ∑ i ∈ range N, a i * past e n i) :
    ∀ n < L, e n = ∑ k ∈ range (n + 1), d k * h (n - k) := by
  -- the sum obeys the recursion
  have hc : ∀ n, ∑ k ∈ range (n + 1), d k * h (n - k) =
      d n + ∑ i ∈ range N, a i * past (fun n => ∑ k ∈ range (n + 1), d k * h (n - k)) n i := by
    intro n
    have e1 : ∀ k ∈ range (n + 1), d k * h (n - k) = (if k = n then d k else 0) + ∑ i ∈ range N, a i * (d k * past h (n - k) i) := by
      intro k hk
      have hk := mem_range.1 hk
      rw [hh (n - k), mul_add, mul_sum]
      congr 1
      · by_cases h0 : k = n
        · rw [if_pos h0, if_pos (by omega), mul_one]
        · rw [if_neg h0, if_neg (by omega), mul_zero]
      · exact sum_congr rfl fun i _ => by ring
    rw [sum_congr rfl e1, sum_add_distrib, sum_ite_eq', if_pos (mem_range.2 (by omega)), sum_comm]
    congr 1
    refine sum_congr rfl fun i _ => ?_
    rw [← mul_sum]
    congr 1
    unfold past
    by_cases hi : i < n
    · rw [if_pos hi]
      rw [show n + 1 = (n - 1 - i + 1) + (i + 1) by omega, sum_range_add]
      rw [sum_eq_zero (s := range (i + 1))]
      · rw [add_zero]
        refine sum_congr rfl fun k hk => ?_
        have hk := mem_range.1 hk
        rw [if_pos (by omega), show n - k - 1 - i = n - 1 - i - k by omega]
      · intro k _
        rw [if_neg (by omega), mul_zero]
    · rw [if_neg hi]
      refine sum_eq_zero fun k _ => ?_
      rw [if_neg (by omega), mul_zero]
  intro n
  induction n using Nat.strongRecOn with
  | ind n ih =>
    intro hn
    rw [he n hn, hc n]
    congr 1
    refine sum_congr rfl fun i _ => ?_
    congr 1
    unfold past
    by_cases hi : i < n
    · rw [if_pos hi, if_pos hi, ih _ (by omega) (by omega)]
    · rw [if_neg hi, if_neg hi]

/-- The weighted sum is bounded by the bound of the inputs. -/
theorem weighted_le {h d : Nat → ℚ} {G D : ℚ} (hG : SumAtMost h G) (hD : 0 ≤ D) (n : Nat) (hd : ∀ k ≤ n, |d k| ≤ D) :
    |∑ k ∈ range (n + 1), d k * h (n - k)| ≤ G * D := by
  refine (abs_sum_le_sum_abs _ _).trans ?_
  calc ∑ k ∈ range (n + 1), |d k * h (n - k)| ≤ ∑ k ∈ range (n + 1), |h (n - k)| * D := by
        refine sum_le_sum fun k hk => ?_
        rw [abs_mul, mul_comm]
        exact mul_le_mul_of_nonneg_left (hd k (by have := mem_range.1 hk; omega)) (abs_nonneg _)
    _ = (∑ k ∈ range (n + 1), |h k|) * D := by
        rw [← sum_mul, ← sum_range_reflect]
        congr 1
        refine sum_congr rfl fun k hk => ?_
        have := mem_range.1 hk
        congr 2
        omega
    _ ≤ G * D := mul_le_mul_of_nonneg_right (hG _) hD

/-! ## One output -/

section Sum

variable {f : Fmt} {S : ℚ}

/-- What is common to the operations: a result that is off by a little before it is rounded. -/
theorem sum_round (hf : f = .double ∨ f = .single) {y : Flt} {q e Q ε : ℚ} (hS : 2 * S ≤ f.maxVal) (hq : |q| ≤ Q) (hQ : Q ≤ S)
    (hε : ε ≤ 3100 * (S * (1 / 2 ^ f.prec)) + 3100 * 2 ^ f.emin) (he : |e - q| ≤ ε) (hy : |e| ≤ f.maxVal → Stands f y (f.srnd e)) :
    ∃ r, Stands f y r ∧ |r - q| ≤ ε + Q * (1 / 2 ^ f.prec) + 1 / 5000 * (S * (1 / 2 ^ f.prec)) + 3 / 5 * 2 ^ f.emin := by
  obtain ⟨h24, hn0, hn, hMx⟩ := fmt_consts hf
  have hu0 : (0 : ℚ) < 1 / 2 ^ f.prec := by positivity
  have hu : 1 / (2 : ℚ) ^ f.prec ≤ 1 / 16777216 := by
    apply one_div_le_one_div_of_le (by norm_num)
    norm_num at h24 ⊢; exact h24
  have hs := srnd_err (f := f) e
  rw [div_eq_mul_one_div] at hs
  generalize 1 / (2 : ℚ) ^ f.prec = u at *
  generalize hη : (2 : ℚ) ^ f.emin = η at *
  have hS0 : 0 ≤ S := (abs_nonneg q).trans (hq.trans hQ)
  have hSu : S * u ≤ S / 16777216 := by nlinarith
  have hSu0 : 0 ≤ S * u := by positivity
  have hη1 : η ≤ 1 / 2 ^ 90 := by linarith [(by norm_num : (1 : ℚ) / 2 ^ 100 ≤ 1 / 2 ^ 90)]
  have hae : |e| ≤ |e - q| + |q| := by
    have := abs_add_le (e - q) q
    rwa [sub_add_cancel] at this
  have h1 : |e| ≤ f.maxVal := by
    have : (1 : ℚ) / 2 ^ 90 * 3100 ≤ 1 := by norm_num
    have : (4 : ℚ) ≤ 2 ^ 100 := by norm_num
    linarith
  refine ⟨f.srnd e, hy h1, ?_⟩
  have h3 := abs_sub_le (f.srnd e) e q
  have hA : |e| * u ≤ (3100 * (S * u) + 3100 * η + Q) * u := mul_le_mul_of_nonneg_right (by linarith) hu0.le
  have hB : S * u * u ≤ S * u / 16777216 := by nlinarith
  have hC : η * u ≤ η / 16777216 := by nlinarith
  have e2 : (3100 * (S * u) + 3100 * η + Q) * u = 3100 * (S * u * u) + 3100 * (η * u) + Q * u := by ring
  rw [e2] at hA
  linarith

/-- The product of two numbers. -/
theorem sum_mul' (hf : f = .double ∨ f = .single) {x y : Flt} {p q : ℚ} (hx : Stands f x p) (hy : Stands f y q) (hS : 2 * S ≤ f.maxVal)
    (h : |p * q| ≤ S) : ∃ r, Stands f (f.mul x y) r ∧ |r - p * q| ≤ |p * q| * (1 / 2 ^ f.prec) + 2 ^ f.emin / 2 := by
  refine ⟨_, mul_stands hf hx hy ?_, ?_⟩
  · have := abs_nonneg (p * q)
    linarith
  · have := srnd_err (f := f) (p * q)
    rwa [div_eq_mul_one_div] at this

variable {c : Iir Flt} {p v a w : Nat → ℚ}

/-- The loop, from a sum with `k` elements so far. -/
theorem iirSum_near (hf : f = .double ∨ f = .single) (hS : 2 * S ≤ f.maxVal) (n : Nat) : ∀ (i k : Nat) (y : Flt) (r q P : ℚ),
    (∀ j, i ≤ j → j < i + n → Stands f (c.b j) (p j) ∧ Stands f (c.x j) (v j) ∧ Stands f (c.a j) (a j) ∧ Stands f (c.y j) (w j)) →
    k + n ≤ 1000 → Stands f y r → |q| ≤ P → P + ∑ j ∈ range n, (|p (i + j) * v (i + j)| + |a (i + j) * w (i + j)|) ≤ S →
    |r - q| ≤ (k + 1) * (1001 / 1000) * (S * (1 / 2 ^ f.prec)) + 2 * (P * (1 / 2 ^ f.prec)) + (3 * k + 1) * 2 ^ f.emin →
    ∃ r', Stands f (iirSum f c n i y) r' ∧
      |r' - (q + ∑ j ∈ range n, (p (i + j) * v (i + j) + a (i + j) * w (i + j)))| ≤ (k + n + 1) * (1001 / 1000) * (S * (1 / 2 ^ f.prec)) +
        2 * ((P + ∑ j ∈ range n, (|p (i + j) * v (i + j)| + |a (i + j) * w (i + j)|)) * (1 / 2 ^ f.prec)) + (3 * (k + n) + 1) * 2 ^ f.emin := by
  induction n with
  | zero =>
    intro i k y r q P _ _ hy _ _ he
    exact ⟨r, hy, by simpa using he⟩
  | succ n ih =>
    intro i k y r q P hc hk hy hq hP he
    obtain ⟨h24, hn0, hn, hMx⟩ := fmt_consts hf
    have hu0 : (0 : ℚ) < 1 / 2 ^ f.prec := by positivity
    have hs : ∀ g : Nat → ℚ, ∑ j ∈ range (n + 1), g (i + j) = g i + ∑ j ∈ range n, g (i + 1 + j) := by
      intro g
      rw [sum_range_succ', add_comm]
      congr 1
      exact sum_congr rfl fun j _ => by rw [show i + (j + 1) = i + 1 + j by omega]
    have hs1 := hs fun j => |p j * v j| + |a j * w j|
    have hs2 := hs fun j => p j * v j + a j * w j
    rw [hs1] at hP
    have hpos : 0 ≤ ∑ j ∈ range n, (|p (i + 1 + j) * v (i + 1 + j)| + |a (i + 1 + j) * w (i + 1 + j)|) :=
      sum_nonneg fun j _ => by positivity
    obtain ⟨c1, c2, c3, c4⟩ := hc i le_rfl (by omega)
    have n1 := abs_nonneg (p i * v i)
    have n2 := abs_nonneg (a i * w i)
    have n3 := abs_nonneg q
    have hS0 : 0 ≤ S := by linarith
    obtain ⟨r1, s1, t1⟩ := sum_mul' hf c1 c2 hS (by linarith)
    obtain ⟨r2, s2, t2⟩ := sum_mul' hf c3 c4 hS (by linarith)
    have q1 : |p i * v i + a i * w i| ≤ |p i * v i| + |a i * w i| := abs_add_le _ _
    have hPu : P * (1 / 2 ^ f.prec) ≤ S * (1 / 2 ^ f.prec) := mul_le_mul_of_nonneg_right (by linarith) hu0.le
    have hTu : (|p i * v i| + |a i * w i|) * (1 / 2 ^ f.prec) ≤ S * (1 / 2 ^ f.prec) := mul_le_mul_of_nonneg_right (by linarith) hu0.le
    have hSu0 : 0 ≤ S * (1 / 2 ^ f.prec) := by positivity
    have hkq : (k : ℚ) + n + 1 ≤ 1000 := by exact_mod_cast (by omega : k + n + 1 ≤ 1000)
    have hn' : (0 : ℚ) ≤ n := by positivity
    have hk' : (0 : ℚ) ≤ k := by positivity
    have hkS : (k : ℚ) * (S * (1 / 2 ^ f.prec)) ≤ 999 * (S * (1 / 2 ^ f.prec)) := mul_le_mul_of_nonneg_right (by linarith) hSu0
    have hkη : (k : ℚ) * 2 ^ f.emin ≤ 999 * 2 ^ f.emin := mul_le_mul_of_nonneg_right (by linarith) hn0.le
    obtain ⟨r3, s3, t3⟩ := sum_round hf (y := f.add (f.mul (c.b i) (c.x i)) (f.mul (c.a i) (c.y i))) (q := p i * v i + a i * w i)
      (e := r1 + r2) (ε := (|p i * v i| + |a i * w i|) * (1 / 2 ^ f.prec) + 2 ^ f.emin) hS q1 (by linarith) (by linarith)
      (by
        have := abs_add_le (r1 - p i * v i) (r2 - a i * w i)
        rw [show r1 - p i * v i + (r2 - a i * w i) = r1 + r2 - (p i * v i + a i * w i) by ring] at this
        linarith) fun h => add_stands hf s1 s2 h
    have q2 : |q + (p i * v i + a i * w i)| ≤ P + (|p i * v i| + |a i * w i|) := by
      have := abs_add_le q (p i * v i + a i * w i)
      linarith
    obtain ⟨r4, s4, t4⟩ := sum_round hf (y := f.add y (f.add (f.mul (c.b i) (c.x i)) (f.mul (c.a i) (c.y i)))) (q := q + (p i * v i + a i * w i))
      (e := r + r3) (ε := ((k + 1) * (1001 / 1000) * (S * (1 / 2 ^ f.prec)) + 2 * (P * (1 / 2 ^ f.prec)) + (3 * k + 1) * 2 ^ f.emin) +
        (2 * ((|p i * v i| + |a i * w i|) * (1 / 2 ^ f.prec)) + 1 / 5000 * (S * (1 / 2 ^ f.prec)) + 8 / 5 * 2 ^ f.emin)) hS q2 (by linarith)
      (by
        have e1 : ((k : ℚ) + 1) * (1001 / 1000) * (S * (1 / 2 ^ f.prec)) = 1001 / 1000 * (k * (S * (1 / 2 ^ f.prec))) + 1001 / 1000 * (S * (1 / 2 ^ f.prec)) := by
          ring
        have e2 : (3 * (k : ℚ) + 1) * 2 ^ f.emin = 3 * (k * 2 ^ f.emin) + 2 ^ f.emin := by ring
        rw [e1, e2]
        linarith)
      (by
        have := abs_add_le (r - q) (r3 - (p i * v i + a i * w i))
        rw [show r - q + (r3 - (p i * v i + a i * w i)) = r + r3 - (q + (p i * v i + a i * w i)) by ring] at this
        linarith) fun h => add_stands hf hy s3 h
    obtain ⟨r', s', t'⟩ := ih (i + 1) (k + 1) _ r4 (q + (p i * v i + a i * w i)) (P + (|p i * v i| + |a i * w i|))
      (fun j h1 h2 => hc j (by omega) (by omega)) (by omega) s4 q2 (by linarith)
      (by
        refine t4.trans ?_
        have hQu : (P + (|p i * v i| + |a i * w i|)) * (1 / 2 ^ f.prec) ≤ S * (1 / 2 ^ f.prec) :=
          mul_le_mul_of_nonneg_right (by linarith) hu0.le
        have e3 : (((k + 1 : Nat) : ℚ) + 1) * (1001 / 1000) * (S * (1 / 2 ^ f.prec)) =
          ((k : ℚ) + 1) * (1001 / 1000) * (S * (1 / 2 ^ f.prec)) + 1001 / 1000 * (S * (1 / 2 ^ f.prec)) := by push_cast; ring
        have e4 : (3 * ((k + 1 : Nat) : ℚ) + 1) * 2 ^ f.emin = (3 * (k : ℚ) + 1) * 2 ^ f.emin + 3 * 2 ^ f.emin := by push_cast; ring
        rw [e3, e4]
        have e5 : 2 * ((P + (|p i * v i| + |a i * w i|)) * (1 / (2 : ℚ) ^ f.prec)) =
          2 * (P * (1 / 2 ^ f.prec)) + 2 * ((|p i * v i| + |a i * w i|) * (1 / 2 ^ f.prec)) := by ring
        rw [e5]
        linarith)
    refine ⟨r', s', ?_⟩
    rw [hs1, hs2, ← add_assoc q, ← add_assoc P]
    refine t'.trans (le_of_eq ?_)
    push_cast
    ring

/-- One output. -/
theorem iirStep_near (hf : f = .double ∨ f = .single) {N : Nat} (hN : N ≤ 1000) {x : Flt} {p0 u : ℚ} (h0 : Stands f c.b0 p0) (hx : Stands f x u)
    (hc : ∀ j < N, Stands f (c.b j) (p j) ∧ Stands f (c.x j) (v j) ∧ Stands f (c.a j) (a j) ∧ Stands f (c.y j) (w j))
    (hS : |p0 * u| + ∑ j ∈ range N, (|p j * v j| + |a j * w j|) ≤ S) (hM : 2 * S ≤ f.maxVal) :
    ∃ r, Stands f (iirStep f N c x).1 r ∧ |r - (p0 * u + ∑ j ∈ range N, (p j * v j + a j * w j))| ≤
      (N + 5) * (S / 2 ^ f.prec) + (3 * N + 1) * 2 ^ f.emin := by
  have hpos : 0 ≤ ∑ j ∈ range N, (|p j * v j| + |a j * w j|) := sum_nonneg fun j _ => by positivity
  have hu0 : (0 : ℚ) < 1 / 2 ^ f.prec := by positivity
  have hn0 := (fmt_consts hf).2.1
  have hS0 : 0 ≤ S := by linarith [abs_nonneg (p0 * u)]
  have hSu0 : 0 ≤ S * (1 / 2 ^ f.prec) := by positivity
  obtain ⟨r0, s0, t0⟩ := sum_mul' hf h0 hx hM (by linarith)
  have hPu : |p0 * u| * (1 / 2 ^ f.prec) ≤ S * (1 / 2 ^ f.prec) := mul_le_mul_of_nonneg_right (by linarith) hu0.le
  have hP0 : 0 ≤ |p0 * u| * (1 / 2 ^ f.prec) := by positivity
  obtain ⟨r, s, t⟩ := iirSum_near (c := c) (p := p) (v := v) (a := a) (w := w) hf hM N 0 0 _ r0 (p0 * u) |p0 * u|
    (fun j _ h => hc j (by omega)) (by omega) s0 le_rfl (by simpa using hS) (by push_cast; linarith)
  refine ⟨r, s, ?_⟩
  simp only [zero_add, Nat.cast_zero] at t
  refine t.trans ?_
  have hQu : (|p0 * u| + ∑ j ∈ range N, (|p j * v j| + |a j * w j|)) * (1 / 2 ^ f.prec) ≤ S * (1 / 2 ^ f.prec) :=
    mul_le_mul_of_nonneg_right hS hu0.le
  rw [div_eq_mul_one_div S]
  have hNq : (N : ℚ) ≤ 1000 := by exact_mod_cast hN
  have := mul_le_mul_of_nonneg_right hNq hSu0
  generalize 1 / (2 : ℚ) ^ f.prec = g at *
  generalize (|p0 * u| + ∑ j ∈ range N, (|p j * v j| + |a j * w j|)) * g = z at *
  have e : ((N : ℚ) + 1) * (1001 / 1000) * (S * g) = 1001 / 1000 * (N * (S * g)) + 1001 / 1000 * (S * g) := by ring
  have e' : ((N : ℚ) + 5) * (S * g) = N * (S * g) + 5 * (S * g) := by ring
  rw [e, e']
  linarith

end Sum

/-! ## The arrays -/

/-- Element `n - 1 - i` of a sequence, or zero before its begin. -/
def recentF (l : List Flt) (n i : Nat) : Flt := if i < n then l.getD (n - 1 - i) (.fin false 0) else .fin false 0

/-- The elements in use after a step. -/
theorem iirStep_x (f : Fmt) (N : Nat) (c : Iir Flt) (x : Flt) (i : Nat) (hi : i < N) :
    (iirStep f N c x).2.x i = (if i = 0 then x else c.x (i - 1)) ∧
    (iirStep f N c x).2.y i = (if i = 0 then (iirStep f N c x).1 else c.y (i - 1)) := by
  unfold iirStep Iir.setZero
  dsimp only
  rw [Iir.shiftLoop_eq, Iir.shiftLoop_eq]
  by_cases h : i = 0
  · simp [h]
  · have h' : 1 ≤ i ∧ i ≤ N - 1 := by omega
    simp only [h, h', if_false, if_true, and_self]

theorem iirSum_congr (f : Fmt) (c c' : Iir Flt) (n : Nat) : ∀ (i : Nat) (y : Flt),
    (∀ j, i ≤ j → j < i + n → c.b j = c'.b j ∧ c.x j = c'.x j ∧ c.a j = c'.a j ∧ c.y j = c'.y j) → iirSum f c n i y = iirSum f c' n i y := by
  induction n with
  | zero => intro i y _; rfl
  | succ n ih =>
    intro i y h
    obtain ⟨h1, h2, h3, h4⟩ := h i le_rfl (by omega)
    simp only [iirSum]
    rw [h1, h2, h3, h4]
    exact ih _ _ fun j h1 h2 => h j (by omega) (by omega)

/-- The outputs, from a filter that has seen a history, given with the latest first. -/
theorem iirRun_spec (f : Fmt) (N : Nat) (b0 : Flt) (b a : Nat → Flt) (xs hx hy : List Flt) (c : Iir Flt) (hc : c.b0 = b0 ∧ c.b = b ∧ c.a = a)
    (h : ∀ i < N, c.x i = hx.getD i (.fin false 0) ∧ c.y i = hy.getD i (.fin false 0)) :
    (iirRun f N c xs).length = xs.length ∧ ∀ n (hn : n < xs.length), (iirRun f N c xs)[n]? =
      some (iirStep f N ⟨b0, b, a, fun i => ((xs.take n).reverse ++ hx).getD i (.fin false 0),
        fun i => (((iirRun f N c xs).take n).reverse ++ hy).getD i (.fin false 0)⟩ xs[n]).1 := by
  induction xs generalizing c hx hy with
  | nil => simp [iirRun]
  | cons x xs ih =>
    have h' : ∀ i < N, (iirStep f N c x).2.x i = (x :: hx).getD i (.fin false 0) ∧
        (iirStep f N c x).2.y i = ((iirStep f N c x).1 :: hy).getD i (.fin false 0) := by
      intro i hi
      rw [(iirStep_x f N c x i hi).1, (iirStep_x f N c x i hi).2]
      cases i with
      | zero => simp
      | succ i =>
        have := h i (by omega)
        simpa using this
    obtain ⟨hl, hs⟩ := ih (x :: hx) ((iirStep f N c x).1 :: hy) (iirStep f N c x).2 hc h'
    refine ⟨by simp [iirRun, hl], ?_⟩
    intro n hn
    cases n with
    | zero =>
      simp only [iirRun, List.take_zero, List.reverse_nil, List.nil_append, List.getElem?_cons_zero, List.getElem_cons_zero]
      unfold iirStep
      dsimp only
      rw [hc.1]
      congr 1
      apply iirSum_congr
      intro j _ hj
      rw [hc.2.1, hc.2.2, (h j (by omega)).1, (h j (by omega)).2]
      exact ⟨rfl, rfl, rfl, rfl⟩
    | succ n =>
      have := hs n (by simpa using hn)
      simp only [iirRun, List.getElem?_cons_succ, List.take_succ_cons, List.reverse_cons, List.append_assoc, List.singleton_append,
        List.getElem_cons_succ]
      rw [this]

theorem recentF_eq (l : List Flt) (n i : Nat) (hn : n ≤ l.length) : ((l.take n).reverse).getD i (.fin false 0) = recentF l n i := by
  unfold recentF
  by_cases h : i < n
  · rw [if_pos h]
    simp only [List.getD_eq_getElem?_getD]
    rw [List.getElem?_reverse (by simp; omega)]
    simp only [List.length_take, List.getElem?_take]
    rw [if_pos (by omega), Nat.min_eq_left hn]
  · rw [if_neg h]
    rw [List.getD_eq_getElem?_getD, List.getElem?_eq_none (by simp; omega)]
    rfl

/-- Every output is that of a filter with the inputs and outputs so far in its arrays. -/
theorem iirRun_step (f : Fmt) (N : Nat) (b0 : Flt) (b a : Nat → Flt) (xs : List Flt) :
    (iirRun f N (iirNew b0 b a) xs).length = xs.length ∧ ∀ n (hn : n < xs.length), (iirRun f N (iirNew b0 b a) xs)[n]? =
      some (iirStep f N ⟨b0, b, a, recentF xs n, recentF (iirRun f N (iirNew b0 b a) xs) n⟩ xs[n]).1 := by
  obtain ⟨hl, hs⟩ := iirRun_spec f N b0 b a xs [] [] (iirNew b0 b a) ⟨rfl, rfl, rfl⟩ (by simp [iirNew])
  refine ⟨hl, fun n hn => ?_⟩
  rw [hs n hn]
  simp only [List.append_nil]
  congr 4
  · funext i; exact recentF_eq _ _ _ (by omega)
  · funext i; exact recentF_eq _ _ _ (by omega)

/-! ## Values that only differ in the sign of a zero -/

/-- A value with a magnitude that is not negative. -/
def Proper (x : Flt) : Prop := ∀ s m, x = .fin s m → 0 ≤ m

theorem Proper.of {f : Fmt} {x : Flt} (h : IsFloat f x) : Proper x := by
  rintro s m rfl
  exact h.1

theorem result_proper (f : Fmt) (z : Bool) (q : ℚ) : Proper (f.result z q) := by
  intro s m h
  unfold Fmt.result at h
  dsimp only at h
  split at h
  · cases h
  · cases h
    exact Fmt.rnd_nonneg f (abs_nonneg q)

theorem add_proper (f : Fmt) (x y : Flt) : Proper (f.add x y) := by
  cases x <;> cases y <;> simp only [Fmt.add] <;> first | exact result_proper _ _ _ | (intro s m h; first | cases h | (split at h <;> cases h))

theorem mul_proper (f : Fmt) (x y : Flt) : Proper (f.mul x y) := by
  cases x <;> cases y <;> simp only [Fmt.mul] <;> first | exact result_proper _ _ _ | (intro s m h; first | cases h | (split at h <;> cases h))

theorem result_pos (f : Fmt) (z z' : Bool) (q : ℚ) : (f.result z q).pos = (f.result z' q).pos := by
  rw [← neg_neg q, result_neg_pos f z z (-q), result_neg_pos f z' z (-q)]

theorem fin_pos_inj {s s' : Bool} {m m' : ℚ} (h : (Flt.fin s m).pos = (Flt.fin s' m').pos) :
    (if s then -m else m) = (if s' then -m' else m') := by
  simpa [Flt.pos, WithBot.coe_inj, WithTop.coe_inj] using h

/-- Values at the same position. -/
theorem pos_cases {x x' : Flt} (h : x.pos = x'.pos) :
    (∃ s m s' m', x = .fin s m ∧ x' = .fin s' m' ∧ (if s then -m else m) = (if s' then -m' else m')) ∨
      (∃ s, x = .inf s ∧ x' = .inf s) ∨ ∃ s s', x = .nan s ∧ x' = .nan s' := by
  cases x with
  | fin s m =>
    cases x' with
    | fin s' m' => exact .inl ⟨_, _, _, _, rfl, rfl, fin_pos_inj h⟩
    | inf s' => cases s' <;> simp [Flt.pos] at h
    | nan s' => simp [Flt.pos] at h
  | inf s =>
    cases x' with
    | fin s' m' => cases s <;> simp [Flt.pos] at h
    | inf s' => cases s <;> cases s' <;> simp [Flt.pos] at h ⊢
    | nan s' => cases s <;> simp [Flt.pos] at h
  | nan s =>
    cases x' with
    | fin s' m' => simp [Flt.pos] at h
    | inf s' => cases s' <;> simp [Flt.pos] at h
    | nan s' => simp

theorem add_pos_congr (f : Fmt) {x x' y y' : Flt} (hx : x.pos = x'.pos) (hy : y.pos = y'.pos) : (f.add x y).pos = (f.add x' y').pos := by
  rcases pos_cases hx with ⟨s, m, s', m', rfl, rfl, e⟩ | ⟨s, rfl, rfl⟩ | ⟨s, s', rfl, rfl⟩ <;>
    rcases pos_cases hy with ⟨t, n, t', n', rfl, rfl, e'⟩ | ⟨t, rfl, rfl⟩ | ⟨t, t', rfl, rfl⟩ <;> simp only [Fmt.add]
  rw [e, e']
  exact result_pos _ _ _ _

theorem neg_pos_congr {x x' : Flt} (hx : x.pos = x'.pos) : x.neg.pos = x'.neg.pos := by
  rcases pos_cases hx with ⟨s, m, s', m', rfl, rfl, e⟩ | ⟨s, rfl, rfl⟩ | ⟨s, s', rfl, rfl⟩
  · simp only [Flt.neg, Flt.pos]
    congr 3
    cases s <;> cases s' <;> simp at e ⊢ <;> linarith
  · rfl
  · rfl

/-- The sign and magnitude are the same, but for the sign of zero. -/
theorem proper_cases {s s' : Bool} {m m' : ℚ} (h : 0 ≤ m) (h' : 0 ≤ m') (e : (if s then -m else m) = (if s' then -m' else m')) :
    (s = s' ∧ m = m') ∨ (m = 0 ∧ m' = 0) := by
  cases s <;> cases s' <;> simp at e ⊢
  · exact .inl e
  · constructor <;> linarith
  · constructor <;> linarith
  · exact .inl e

theorem mul_pos_congr (f : Fmt) {x y y' : Flt} (h : Proper y) (h' : Proper y') (hy : y.pos = y'.pos) : (f.mul x y).pos = (f.mul x y').pos := by
  rcases pos_cases hy with ⟨t, n, t', n', rfl, rfl, e⟩ | ⟨t, rfl, rfl⟩ | ⟨t, t', rfl, rfl⟩
  · rcases proper_cases (h _ _ rfl) (h' _ _ rfl) e with ⟨rfl, rfl⟩ | ⟨rfl, rfl⟩
    · rfl
    · rcases x with ⟨s, m⟩ | s | s
      · simp only [Fmt.mul, mul_zero, neg_zero, ite_self]
        exact result_pos _ _ _ _
      · simp [Fmt.mul]
      · simp [Fmt.mul]
  · rfl
  · cases x <;> rfl

theorem mul_neg_pos (f : Fmt) (x y : Flt) : (f.mul x y.neg).pos = (f.mul x y).neg.pos := by
  rcases x with ⟨s, m⟩ | s | s <;> rcases y with ⟨t, n⟩ | t | t
  · change (f.result (s != !t) (if (s != !t) = true then -(m * n) else m * n)).pos = (f.result (s != t) (if (s != t) = true then -(m * n) else m * n)).neg.pos
    rw [← result_neg_pos f (s != !t) (s != t)]
    congr 2
    cases s <;> cases t <;> simp
  · simp only [Fmt.mul, Flt.neg]; split
    · rfl
    · cases s <;> cases t <;> rfl
  · rfl
  · simp only [Fmt.mul, Flt.neg]; split
    · rfl
    · cases s <;> cases t <;> rfl
  · cases s <;> cases t <;> rfl
  · rfl
  · rfl
  · rfl
  · rfl

theorem add_neg_pos (f : Fmt) (x y : Flt) : (f.add x.neg y.neg).pos = (f.add x y).neg.pos := by
  rcases x with ⟨s, m⟩ | s | s <;> rcases y with ⟨t, n⟩ | t | t
  · change (f.result (!s && !t) ((if (!s) = true then -m else m) + if (!t) = true then -n else n)).pos =
      (f.result (s && t) ((if s = true then -m else m) + if t = true then -n else n)).neg.pos
    rw [← result_neg_pos f (!s && !t) (s && t)]
    congr 2
    cases s <;> cases t <;> simp <;> ring
  · rfl
  · rfl
  · rfl
  · cases s <;> cases t <;> rfl
  · rfl
  · rfl
  · rfl
  · rfl

theorem neg_proper {x : Flt} (h : Proper x) : Proper x.neg := by
  rintro s m e
  rcases x with ⟨t, n⟩ | t | t
  · simp only [Flt.neg, Flt.fin.injEq] at e
    exact e.2 ▸ h _ _ rfl
  · cases e
  · cases e

/-! ## Filters with the same values in their arrays, or the negative ones -/

/-- Two filters with the same coefficients whose arrays have values at the same positions, possibly after a change of signs. -/
structure Alike (N : Nat) (g : Flt → Flt) (c c' : Iir Flt) : Prop where
  b0 : c'.b0 = c.b0
  b : c'.b = c.b
  a : c'.a = c.a
  x : ∀ i < N, (c'.x i).pos = (g (c.x i)).pos ∧ Proper (c.x i) ∧ Proper (c'.x i)
  y : ∀ i < N, (c'.y i).pos = (g (c.y i)).pos ∧ Proper (c.y i) ∧ Proper (c'.y i)

/-- What is used of the change. -/
structure Change (f : Fmt) (g : Flt → Flt) : Prop where
  mul : ∀ x y, (f.mul x (g y)).pos = (g (f.mul x y)).pos
  add : ∀ x y, (f.add (g x) (g y)).pos = (g (f.add x y)).pos
  proper : ∀ x, Proper x → Proper (g x)

theorem Change.same (f : Fmt) : Change f id := ⟨fun _ _ => rfl, fun _ _ => rfl, fun _ h => h⟩

theorem Change.neg (f : Fmt) : Change f Flt.neg := ⟨mul_neg_pos f, add_neg_pos f, fun _ => neg_proper⟩

theorem alike_sum {f : Fmt} {g : Flt → Flt} (hg : Change f g) {N : Nat} {c c' : Iir Flt} (h : Alike N g c c') (n : Nat) : ∀ (i : Nat) (y y' : Flt),
    i + n ≤ N → y'.pos = (g y).pos → Proper y → Proper y' →
    (iirSum f c' n i y').pos = (g (iirSum f c n i y)).pos ∧ Proper (iirSum f c n i y) ∧ Proper (iirSum f c' n i y') := by
  induction n with
  | zero => intro i y y' _ e h1 h2; exact ⟨e, h1, h2⟩
  | succ n ih =>
    intro i y y' hi e _ _
    simp only [iirSum]
    refine ih _ _ _ (by omega) ?_ (add_proper _ _ _) (add_proper _ _ _)
    obtain ⟨x1, x2, x3⟩ := h.x i (by omega)
    obtain ⟨y1, y2, y3⟩ := h.y i (by omega)
    rw [h.b, h.a, ← hg.add]
    refine add_pos_congr f e ?_
    rw [← hg.add]
    refine add_pos_congr f ?_ ?_
    · rw [← hg.mul]; exact mul_pos_congr f x3 (hg.proper _ x2) x1
    · rw [← hg.mul]; exact mul_pos_congr f y3 (hg.proper _ y2) y1

theorem alike_step {f : Fmt} {g : Flt → Flt} (hg : Change f g) {N : Nat} {c c' : Iir Flt} (h : Alike N g c c') {x x' : Flt} (hx : x'.pos = (g x).pos)
    (hp : Proper x) (hp' : Proper x') :
    (iirStep f N c' x').1.pos = (g (iirStep f N c x).1).pos ∧ Alike N g (iirStep f N c x).2 (iirStep f N c' x').2 := by
  have hs := alike_sum hg h N 0 (f.mul c.b0 x) (f.mul c'.b0 x') (by omega)
    (by rw [h.b0, ← hg.mul]; exact mul_pos_congr f hp' (hg.proper _ hp) hx) (mul_proper _ _ _) (mul_proper _ _ _)
  refine ⟨hs.1, h.b0, h.b, h.a, ?_, ?_⟩ <;> intro i hi
  · rw [(iirStep_x f N c x i hi).1, (iirStep_x f N c' x' i hi).1]
    by_cases h0 : i = 0
    · rw [if_pos h0, if_pos h0]; exact ⟨hx, hp, hp'⟩
    · rw [if_neg h0, if_neg h0]; exact h.x _ (by omega)
  · rw [(iirStep_x f N c x i hi).2, (iirStep_x f N c' x' i hi).2]
    by_cases h0 : i = 0
    · rw [if_pos h0, if_pos h0]; exact hs
    · rw [if_neg h0, if_neg h0]; exact h.y _ (by omega)

theorem alike_run {f : Fmt} {g : Flt → Flt} (hg : Change f g) {N : Nat} (xs : List Flt) : ∀ {c c' : Iir Flt}, Alike N g c c' →
    (∀ x ∈ xs, Proper x) → (iirRun f N c' (xs.map g)).map Flt.pos = (iirRun f N c xs).map fun y => (g y).pos := by
  induction xs with
  | nil => intro c c' _ _; rfl
  | cons x xs ih =>
    intro c c' h hp
    have hx := hp x (by simp)
    obtain ⟨h1, h2⟩ := alike_step hg h (x := x) (x' := g x) rfl hx (hg.proper _ hx)
    simp only [List.map_cons, iirRun]
    rw [h1, ih h2 fun x hx => hp x (by simp [hx])]

/-! ## Values that are not finite -/

theorem notFinite_iff (x : Flt) : NotFinite x ↔ ∀ s m, x ≠ .fin s m := by
  constructor
  · rintro h s m rfl
    exact h _ rfl
  · intro h q e
    rcases x with ⟨s, m⟩ | s | s
    · exact h s m rfl
    · cases s <;> simp [Flt.pos] at e
    · simp [Flt.pos] at e

theorem notNumber_iff (x : Flt) : NotNumber x ↔ ∃ s, x = .nan s := by
  unfold NotNumber
  rcases x with ⟨s, m⟩ | s | s
  · simp [Flt.pos]
  · cases s <;> simp [Flt.pos]
  · simp [Flt.pos]

theorem add_notFinite (f : Fmt) {x y : Flt} (h : NotFinite x ∨ NotFinite y) : NotFinite (f.add x y) := by
  simp only [notFinite_iff] at h ⊢
  rcases x with ⟨s, m⟩ | s | s <;> rcases y with ⟨t, n⟩ | t | t <;> simp only [Fmt.add] <;> intro u k <;> simp at h ⊢
  split <;> simp

theorem mul_notFinite (f : Fmt) {x y : Flt} (h : NotFinite y) : NotFinite (f.mul x y) := by
  simp only [notFinite_iff] at h ⊢
  rcases x with ⟨s, m⟩ | s | s <;> rcases y with ⟨t, n⟩ | t | t <;> simp only [Fmt.mul] <;> intro u k <;> simp at h ⊢
  split <;> simp

theorem add_notNumber (f : Fmt) {x y : Flt} (h : NotNumber x ∨ NotNumber y) : NotNumber (f.add x y) := by
  simp only [notNumber_iff] at h ⊢
  rcases h with ⟨s, rfl⟩ | ⟨s, rfl⟩
  · exact ⟨_, rfl⟩
  · cases x <;> exact ⟨_, rfl⟩

theorem mul_notNumber (f : Fmt) {x y : Flt} (h : NotNumber y) : NotNumber (f.mul x y) := by
  simp only [notNumber_iff] at h ⊢
  obtain ⟨s, rfl⟩ := h
  cases x <;> exact ⟨_, rfl⟩

/-- A property that goes through sums and products. -/
structure Spreads (f : Fmt) (P : Flt → Prop) : Prop where
  add : ∀ {x y}, P x ∨ P y → P (f.add x y)
  mul : ∀ {x y}, P y → P (f.mul x y)

theorem spread_sum {f : Fmt} {P : Flt → Prop} (hP : Spreads f P) (c : Iir Flt) (n : Nat) : ∀ (i : Nat) (y : Flt),
    P y ∨ (0 < n ∧ P (c.y i)) → P (iirSum f c n i y) := by
  induction n with
  | zero => intro i y h; exact h.elim id fun h => absurd h.1 (lt_irrefl 0)
  | succ n ih =>
    intro i y h
    simp only [iirSum]
    refine ih _ _ (.inl (hP.add ?_))
    rcases h with h | h
    · exact .inl h
    · exact .inr (hP.add (.inr (hP.mul h.2)))

/-- Once in the output or in the input, in every output from there on. -/
theorem spread_run {f : Fmt} {P : Flt → Prop} (hP : Spreads f P) {N : Nat} (hN : 0 < N) (xs : List Flt) : ∀ (c : Iir Flt),
    P (c.y 0) → ∀ y ∈ iirRun f N c xs, P y := by
  induction xs with
  | nil => intro c _ y hy; cases hy
  | cons x xs ih =>
    intro c h y hy
    have h1 : P (iirStep f N c x).1 := spread_sum hP c N 0 _ (.inr ⟨hN, h⟩)
    simp only [iirRun, List.mem_cons] at hy
    rcases hy with rfl | hy
    · exact h1
    · refine ih _ ?_ y hy
      rw [(iirStep_x f N c x 0 hN).2, if_pos rfl]
      exact h1

theorem spread_from {f : Fmt} {P : Flt → Prop} (hP : Spreads f P) {N : Nat} (hN : 0 < N) (k : Nat) : ∀ (c : Iir Flt) (xs : List Flt),
    (∃ x, xs[k]? = some x ∧ P x) ∨ (∃ y, (iirRun f N c xs)[k]? = some y ∧ P y) → ∀ n y, k ≤ n → (iirRun f N c xs)[n]? = some y → P y := by
  induction k with
  | zero =>
    intro c xs h n y _ hy
    cases xs with
    | nil => simp [iirRun] at hy
    | cons x xs =>
      have h1 : P (iirStep f N c x).1 := by
        rcases h with ⟨x', e, h⟩ | ⟨y', e, h⟩
        · simp only [List.getElem?_cons_zero, Option.some.injEq] at e
          subst e
          exact spread_sum hP c N 0 _ (.inl (hP.mul h))
        · simp only [iirRun, List.getElem?_cons_zero, Option.some.injEq] at e
          exact e ▸ h
      cases n with
      | zero =>
        simp only [iirRun, List.getElem?_cons_zero, Option.some.injEq] at hy
        exact hy ▸ h1
      | succ n =>
        simp only [iirRun, List.getElem?_cons_succ] at hy
        refine spread_run hP hN xs _ ?_ y (List.mem_of_getElem? hy)
        rw [(iirStep_x f N c x 0 hN).2, if_pos rfl]
        exact h1
  | succ k ih =>
    intro c xs h n y hn hy
    cases xs with
    | nil => simp [iirRun] at hy
    | cons x xs =>
      obtain ⟨n, rfl⟩ : ∃ m, n = m + 1 := ⟨n - 1, by omega⟩
      simp only [iirRun, List.getElem?_cons_succ] at hy h
      exact ih _ xs h n y (by omega) hy

end Flut
