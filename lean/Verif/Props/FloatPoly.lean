import Verif.Proofs.FloatLerp
import Mathlib.Algebra.BigOperators.Group.Finset.Basic
import Mathlib.Algebra.Order.BigOperators.Group.Finset
import Mathlib.Algebra.Order.Ring.Pow

/-! # Property theorems: polynomials in floating-point arithmetic (C106) -/

namespace Flut

open Spec FloatMath

/-- The sum of the terms from the power `k` on, and the sum of their magnitudes. -/
def tailSum (x : ℚ) : Nat → List ℚ → ℚ
  | _, [] => 0
  | k, c :: cs => c * x ^ k + tailSum x (k + 1) cs

def tailAbs (x : ℚ) : Nat → List ℚ → ℚ
  | _, [] => 0
  | k, c :: cs => |c * x ^ k| + tailAbs x (k + 1) cs

theorem tailAbs_nonneg (x : ℚ) (k : Nat) (cs : List ℚ) : 0 ≤ tailAbs x k cs := by
  induction cs generalizing k with
  | nil => exact le_rfl
  | cons c cs ih => exact add_nonneg (abs_nonneg _) (ih _)

theorem tailSum_eq (x : ℚ) (k : Nat) (cs : List ℚ) :
    tailSum x k cs = ∑ i ∈ Finset.range cs.length, cs.getD i 0 * x ^ (k + i) := by
  induction cs generalizing k with
  | nil => simp [tailSum]
  | cons c cs ih =>
    rw [tailSum, ih, List.length_cons, Finset.sum_range_succ']
    simp only [List.getD_cons_zero, List.getD_cons_succ, add_zero, Nat.add_right_comm k 1, ← Nat.add_assoc]
    rw [add_comm]

theorem tailAbs_eq (x : ℚ) (k : Nat) (cs : List ℚ) :
    tailAbs x k cs = ∑ i ∈ Finset.range cs.length, |cs.getD i 0 * x ^ (k + i)| := by
  induction cs generalizing k with
  | nil => simp [tailAbs]
  | cons c cs ih =>
    rw [tailAbs, ih, List.length_cons, Finset.sum_range_succ']
    simp only [List.getD_cons_zero, List.getD_cons_succ, add_zero, Nat.add_right_comm k 1, ← Nat.add_assoc]
    rw [add_comm]

/-- A rounded product of a number with relative error. -/
theorem rel_mul {u E φ p c P : ℚ} (hu : 0 < u) (hφ : |φ - p| ≤ E * |p|) (hP : |P - φ * c| ≤ |φ * c| * u) :
    |P - p * c| ≤ ((1 + E) * (1 + u) - 1) * |p * c| := by
  have h1 : |φ * c - p * c| ≤ E * |p * c| := by
    rw [← sub_mul, abs_mul, abs_mul, ← mul_assoc]
    exact mul_le_mul_of_nonneg_right hφ (abs_nonneg _)
  have h2 : |φ * c| ≤ (1 + E) * |p * c| := by
    have t := abs_add_le (p * c) (φ * c - p * c)
    have e : p * c + (φ * c - p * c) = φ * c := by ring
    rw [e] at t
    linarith
  have t := abs_add_le (P - φ * c) (φ * c - p * c)
  have e : P - φ * c + (φ * c - p * c) = P - p * c := by ring
  rw [e] at t
  have h3 : |φ * c| * u ≤ (1 + E) * |p * c| * u := mul_le_mul_of_nonneg_right h2 hu.le
  have h4 : (1 + E) * |p * c| * u + E * |p * c| = ((1 + E) * (1 + u) - 1) * |p * c| := by ring
  linarith

/-- A rounded sum of two numbers with error. -/
theorem rel_add {u B r S T P t R : ℚ} (hu : 0 < u) (hB : 1 ≤ B) (hST : |S| ≤ T) (hr : |r - S| ≤ (B - 1) * T)
    (hP : |P - t| ≤ (B - 1) * |t|) (hR : |R - (r + P)| ≤ |r + P| * u) :
    |R - (S + t)| ≤ (B * (1 + u) - 1) * (T + |t|) ∧ |r + P| ≤ B * (T + |t|) := by
  have h1 : |r + P - (S + t)| ≤ (B - 1) * (T + |t|) := by
    have e : r + P - (S + t) = (r - S) + (P - t) := by ring
    rw [e]
    have := abs_add_le (r - S) (P - t)
    linarith
  have h2 : |r + P| ≤ B * (T + |t|) := by
    have t1 := abs_add_le (S + t) (r + P - (S + t))
    have e : S + t + (r + P - (S + t)) = r + P := by ring
    rw [e] at t1
    have := abs_add_le S t
    linarith
  refine ⟨?_, h2⟩
  have t1 := abs_add_le (R - (r + P)) (r + P - (S + t))
  have e : R - (r + P) + (r + P - (S + t)) = R - (S + t) := by ring
  rw [e] at t1
  have h3 : |r + P| * u ≤ B * (T + |t|) * u := mul_le_mul_of_nonneg_right h2 hu.le
  have h4 : B * (T + |t|) * u + (B - 1) * (T + |t|) = (B * (1 + u) - 1) * (T + |t|) := by ring
  linarith

theorem pow_bound {u : ℚ} {n : Nat} (h0 : 0 < u) (h : n * 4 * u ≤ 1) : (1 + u) ^ n ≤ 3 / 2 := by
  have hn : (0 : ℚ) ≤ n := by positivity
  rcases Nat.eq_zero_or_pos n with rfl | hpos
  · norm_num
  have hn1 : (1 : ℚ) ≤ n := by exact_mod_cast hpos
  have hu : u ≤ 1 / 4 := by nlinarith
  have h1 : 1 + (n : ℚ) * (-u) ≤ (1 + -u) ^ n := one_add_mul_le_pow (by linarith) n
  have h2 : (1 + u) ^ n * (1 + -u) ^ n ≤ 1 := by
    rw [← mul_pow]
    refine pow_le_one₀ ?_ ?_
    · exact mul_nonneg (by linarith) (by linarith)
    · nlinarith
  have h3 : 3 / 4 ≤ (1 + -u) ^ n := by linarith
  have h4 : 0 ≤ (1 + u) ^ n := by positivity
  nlinarith

theorem polyLoop_err {f : Fmt} (hf : f = .double ∨ f = .single) {u N x : ℚ} (hu : u = 1 / 2 ^ f.prec)
    (hN : N = 2 ^ f.prec * 2 ^ f.emin) {vx : Flt} (hvx : Stands f vx x) {cs : List Flt} {qs : List ℚ}
    (h : List.Forall₂ (Stands f) cs qs) : ∀ (k : Nat) (R F : Flt) (r φ S T : ℚ), 1 ≤ k →
      (1 + u) ^ (k + cs.length - 1) ≤ 3 / 2 →
      (∀ i, k ≤ i → i < k + cs.length → N ≤ |x ^ i| ∧ 2 * |x ^ i| ≤ f.maxVal) →
      (∀ i c, qs[i]? = some c → c = 0 ∨ N ≤ |c * x ^ (k + i)|) → Stands f R r →
      (cs ≠ [] → Stands f F φ ∧ |φ - x ^ k| ≤ ((1 + u) ^ (k - 1) - 1) * |x ^ k|) → |S| ≤ T → |r - S| ≤ ((1 + u) ^ k - 1) * T →
      (1 + u) ^ (k + cs.length) * (T + tailAbs x k qs) ≤ f.maxVal →
      ∃ v, Stands f (polyLoop f vx cs R F) v ∧
        |v - (S + tailSum x k qs)| ≤ ((1 + u) ^ (k + cs.length) - 1) * (T + tailAbs x k qs) := by
  have hu0 : 0 < u := by rw [hu]; positivity
  have hdiv : ∀ z : ℚ, z / 2 ^ f.prec = z * u := by intro z; rw [hu]; ring
  have hp := prec_pos hf
  induction h with
  | nil =>
    intro k R F r φ S T _ _ _ _ hR _ _ hr _
    exact ⟨r, hR, by simpa [tailSum, tailAbs] using hr⟩
  | @cons cx c cs qs hc h ih =>
    intro k R F r φ S T hk h32 hpow hterm hR hF hST hr hmax
    obtain ⟨hF, hφ⟩ := hF (by simp)
    simp only [List.length_cons, tailAbs, tailSum, polyLoop] at *
    have hTA := tailAbs_nonneg x (k + 1) qs
    have mono : ∀ {i j : Nat}, i ≤ j → (1 + u) ^ i ≤ (1 + u) ^ j := fun hij => pow_le_pow_right₀ (by linarith) hij
    have one : ∀ i : Nat, 1 ≤ (1 + u) ^ i := fun i => one_le_pow₀ (by linarith)
    have hB : (1 + u) ^ (k - 1) * (1 + u) = (1 + u) ^ k := by rw [← pow_succ]; congr 1; omega
    have hk32 : (1 + u) ^ (k - 1) ≤ 3 / 2 := (mono (by omega)).trans h32
    have hxk := abs_nonneg (x ^ k)
    -- the factor is close to the power
    have hφ1 : |φ| ≤ 3 / 2 * |x ^ k| := by
      have t := abs_add_le (x ^ k) (φ - x ^ k)
      have e : x ^ k + (φ - x ^ k) = φ := by ring
      rw [e] at t
      have : ((1 + u) ^ (k - 1) - 1) * |x ^ k| ≤ 1 / 2 * |x ^ k| := mul_le_mul_of_nonneg_right (by linarith) hxk
      linarith
    have hφ2 : |x ^ k| ≤ 2 * |φ| := by
      have t := abs_add_le φ (x ^ k - φ)
      have e : φ + (x ^ k - φ) = x ^ k := by ring
      rw [e, abs_sub_comm (x ^ k) φ] at t
      have : ((1 + u) ^ (k - 1) - 1) * |x ^ k| ≤ 1 / 2 * |x ^ k| := mul_le_mul_of_nonneg_right (by linarith) hxk
      linarith
    have ht : c * x ^ k = x ^ k * c := mul_comm _ _
    have hT0 : 0 ≤ T := (abs_nonneg _).trans hST
    have htab := abs_nonneg (x ^ k * c)
    rw [ht] at hmax ⊢
    have hsum : (1 + u) ^ (k + (cs.length + 1)) * (|x ^ k * c|) ≤ f.maxVal :=
      (mul_le_mul_of_nonneg_left (by linarith : |x ^ k * c| ≤ T + (|x ^ k * c| + tailAbs x (k + 1) qs))
        (by linarith [one (k + (cs.length + 1))])).trans hmax
    -- the product
    have hφc : |φ * c| ≤ f.maxVal := by
      have h1 : |φ * c - x ^ k * c| ≤ ((1 + u) ^ (k - 1) - 1) * |x ^ k * c| := by
        rw [← sub_mul, abs_mul, abs_mul, ← mul_assoc]
        exact mul_le_mul_of_nonneg_right hφ (abs_nonneg _)
      have t := abs_add_le (x ^ k * c) (φ * c - x ^ k * c)
      have e : x ^ k * c + (φ * c - x ^ k * c) = φ * c := by ring
      rw [e] at t
      have : (1 + u) ^ (k - 1) * |x ^ k * c| ≤ (1 + u) ^ (k + (cs.length + 1)) * |x ^ k * c| :=
        mul_le_mul_of_nonneg_right (mono (by omega)) htab
      linarith
    have s1 := mul_stands hf hF hc hφc
    have e1 : |f.srnd (φ * c) - φ * c| ≤ |φ * c| * u := by
      rw [← hdiv]
      rcases hterm 0 c (by simp) with rfl | hbig
      · rw [mul_zero, Fmt.srnd_zero]; simp
      · refine srnd_rel_normal ?_
        rw [← hN]
        rw [Nat.add_zero, ht] at hbig
        refine hbig.trans ?_
        rw [abs_mul, abs_mul, ← mul_assoc]
        exact mul_le_mul_of_nonneg_right hφ2 (abs_nonneg _)
    have e2 := rel_mul hu0 hφ e1
    rw [show (1 + ((1 + u) ^ (k - 1) - 1)) * (1 + u) - 1 = (1 + u) ^ k - 1 by rw [← hB]; ring] at e2
    generalize f.srnd (φ * c) = P at s1 e2
    -- the sum
    have e3 := srnd_rel (f := f) hp (q := r + P) (multiple_add (binary_mul hR.binary) (binary_mul s1.binary))
    rw [hdiv] at e3
    obtain ⟨e4, e5⟩ := rel_add hu0 (one k) hST hr e2 e3
    have s2 := add_stands hf hR s1 (by
      refine e5.trans (le_trans ?_ hmax)
      exact mul_le_mul (mono (by omega)) (by linarith) (by linarith) (by linarith [one (k + (cs.length + 1))]))
    generalize f.srnd (r + P) = R' at s2 e4
    rw [← pow_succ] at e4
    -- the next factor
    have hidx : k + 1 + cs.length = k + (cs.length + 1) := by omega
    obtain ⟨v, hv, he⟩ := ih (k + 1) (f.add R (f.mul F cx)) (f.mul F vx) R' (f.srnd (φ * x)) (S + x ^ k * c) (T + |x ^ k * c|)
      (by omega) (by rw [hidx]; exact h32) (fun i h1 h2 => hpow i (by omega) (by omega))
      (fun i d hd => by
        have := hterm (i + 1) d (by simpa using hd)
        rwa [show k + (i + 1) = k + 1 + i by omega] at this) s2
      (fun hne => by
        have hn1 : 0 < cs.length := List.length_pos_iff.2 hne
        obtain ⟨p1, p2⟩ := hpow (k + 1) (by omega) (by omega)
        have hx1 : |x ^ (k + 1)| = |x ^ k| * |x| := by rw [pow_succ, abs_mul]
        have g1 : |φ * x| ≤ f.maxVal := by
          rw [abs_mul]
          have : |φ| * |x| ≤ 3 / 2 * |x ^ k| * |x| := mul_le_mul_of_nonneg_right hφ1 (abs_nonneg _)
          rw [mul_assoc, ← hx1] at this
          have := abs_nonneg (x ^ (k + 1))
          linarith
        have g2 : |f.srnd (φ * x) - φ * x| ≤ |φ * x| * u := by
          rw [← hdiv]
          refine srnd_rel_normal ?_
          rw [← hN]
          refine p1.trans ?_
          rw [hx1, abs_mul, ← mul_assoc]
          exact mul_le_mul_of_nonneg_right hφ2 (abs_nonneg _)
        have g3 := rel_mul hu0 hφ g2
        rw [show (1 + ((1 + u) ^ (k - 1) - 1)) * (1 + u) - 1 = (1 + u) ^ k - 1 by rw [← hB]; ring, ← pow_succ] at g3
        exact ⟨mul_stands hf hF hvx g1, g3⟩)
      (by have := abs_add_le S (x ^ k * c); linarith) e4
      (by rw [hidx]; refine le_of_eq_of_le ?_ hmax; ring)
    refine ⟨v, hv, ?_⟩
    rw [hidx] at he
    have q1 : S + x ^ k * c + tailSum x (k + 1) qs = S + (x ^ k * c + tailSum x (k + 1) qs) := by ring
    have q2 : T + |x ^ k * c| + tailAbs x (k + 1) qs = T + (|x ^ k * c| + tailAbs x (k + 1) qs) := by ring
    rw [q1, q2] at he
    exact he

/-- The value of a polynomial of degree `n` differs from the exact one by at most about `n + 1` units of the last place of the sum of
the magnitudes of its terms, if nothing overflows and no power of the argument and no term is too small for the full precision. -/
theorem C106_error_partial (f : Fmt) (hf : f = .double ∨ f = .single) (c0 vx : Flt) (cs : List Flt) (q0 x : ℚ) (qs : List ℚ)
    (h0 : Stands f c0 q0) (hx : Stands f vx x) (hc : List.Forall₂ (Stands f) cs qs) (hn : cs.length * 4 ≤ 2 ^ f.prec)
    (hpow : ∀ i, 1 ≤ i → i ≤ qs.length → (2 : ℚ) ^ f.prec * 2 ^ f.emin ≤ |x ^ i| ∧ 2 * |x ^ i| ≤ f.maxVal)
    (hterm : ∀ i c, qs[i]? = some c → c = 0 ∨ (2 : ℚ) ^ f.prec * 2 ^ f.emin ≤ |c * x ^ (i + 1)|)
    (hmax : (1 + 1 / 2 ^ f.prec) ^ (qs.length + 1) * ∑ i ∈ Finset.range (qs.length + 1), |(q0 :: qs).getD i 0 * x ^ i| ≤ f.maxVal) :
    ∃ v, Stands f (polynomial f c0 cs vx) v ∧ |v - ∑ i ∈ Finset.range (qs.length + 1), (q0 :: qs).getD i 0 * x ^ i| ≤
      ((1 + 1 / 2 ^ f.prec) ^ (qs.length + 1) - 1) * ∑ i ∈ Finset.range (qs.length + 1), |(q0 :: qs).getD i 0 * x ^ i| := by
  have hl := hc.length_eq
  have hu0 : (0 : ℚ) < 1 / 2 ^ f.prec := by positivity
  have hA : ∑ i ∈ Finset.range (qs.length + 1), |(q0 :: qs).getD i 0 * x ^ i| = |q0| + tailAbs x 1 qs := by
    rw [Finset.sum_range_succ', tailAbs_eq, add_comm]
    simp only [List.getD_cons_zero, List.getD_cons_succ, pow_zero, mul_one, add_comm 1]
  have hS : ∑ i ∈ Finset.range (qs.length + 1), (q0 :: qs).getD i 0 * x ^ i = q0 + tailSum x 1 qs := by
    rw [Finset.sum_range_succ', tailSum_eq, add_comm]
    simp only [List.getD_cons_zero, List.getD_cons_succ, pow_zero, mul_one, add_comm 1]
  rw [hA] at hmax ⊢
  rw [hS, add_comm qs.length 1, ← hl]
  rw [add_comm qs.length 1, ← hl] at hmax
  rw [← hl] at hpow
  refine polyLoop_err hf rfl rfl hx hc 1 c0 vx q0 x q0 |q0| le_rfl ?_ ?_ ?_ h0 ?_ le_rfl ?_ hmax
  · rw [Nat.add_sub_cancel_left]
    refine pow_bound hu0 ?_
    rw [mul_one_div, div_le_one (by positivity)]
    exact_mod_cast hn
  · exact fun i h1 h2 => hpow i h1 (by omega)
  · intro i c h
    rw [add_comm 1 i]
    exact hterm i c h
  · intro _
    exact ⟨hx, by simp⟩
  · rw [sub_self, abs_zero]
    exact mul_nonneg (by rw [pow_one]; linarith) (abs_nonneg _)

/-! ### Where the value is exact -/

theorem int_binary {f : Fmt} (hf : f = .double ∨ f = .single) {n : Int} (h : |n| < 2 ^ f.prec) : IsBinary f.prec f.emin n :=
  ⟨n, 0, h, by rcases hf with rfl | rfl <;> decide, by simp⟩

theorem int_max {f : Fmt} (hf : f = .double ∨ f = .single) {n : Int} (h : |n| < 2 ^ f.prec) : |(n : ℚ)| ≤ f.maxVal := by
  have hp : (2 : ℚ) ^ f.prec ≤ 2 ^ 100 := by
    rcases hf with rfl | rfl <;> exact pow_le_pow_right₀ (by norm_num) (by decide)
  have : |(n : ℚ)| ≤ 2 ^ f.prec := by exact_mod_cast h.le
  linarith [(fmt_consts hf).2.2.2]

theorem int_add {f : Fmt} (hf : f = .double ∨ f = .single) {x y : Flt} {a b : Int} (hx : Stands f x a) (hy : Stands f y b)
    (h : |a + b| < 2 ^ f.prec) : Stands f (f.add x y) ((a + b : Int) : ℚ) := by
  have := add_stands hf hx hy (by rw [← Int.cast_add]; exact int_max hf h)
  rwa [← Int.cast_add, Fmt.srnd_self (prec_pos hf) (int_binary hf h)] at this

theorem int_mul {f : Fmt} (hf : f = .double ∨ f = .single) {x y : Flt} {a b : Int} (hx : Stands f x a) (hy : Stands f y b)
    (h : |a * b| < 2 ^ f.prec) : Stands f (f.mul x y) ((a * b : Int) : ℚ) := by
  have := mul_stands hf hx hy (by rw [← Int.cast_mul]; exact int_max hf h)
  rwa [← Int.cast_mul, Fmt.srnd_self (prec_pos hf) (int_binary hf h)] at this

theorem polyLoop_int {f : Fmt} (hf : f = .double ∨ f = .single) {x : Int} {vx : Flt} (hvx : Stands f vx x) {cs : List Flt}
    {qs : List Int} (h : List.Forall₂ (fun c (q : Int) => Stands f c q) cs qs) : ∀ (k : Nat) (R F : Flt) (S T : Int),
      (∀ i, k ≤ i → i < k + cs.length → |x ^ i| < 2 ^ f.prec) → Stands f R S → (cs ≠ [] → Stands f F ((x ^ k : Int) : ℚ)) →
      |S| ≤ T → T + (∑ i ∈ Finset.range qs.length, |qs.getD i 0 * x ^ (k + i)|) < 2 ^ f.prec →
      Stands f (polyLoop f vx cs R F) ((S + ∑ i ∈ Finset.range qs.length, qs.getD i 0 * x ^ (k + i) : Int) : ℚ) := by
  induction h with
  | nil =>
    intro k R F S T _ hR _ _ _
    simpa [polyLoop] using hR
  | @cons cx c cs qs hc h ih =>
    intro k R F S T hpow hR hF hST hmax
    have hF := hF (by simp)
    rw [List.length_cons, Finset.sum_range_succ'] at hmax ⊢
    have hk : ∀ i, k + (i + 1) = k + 1 + i := fun i => by omega
    simp only [List.getD_cons_zero, List.getD_cons_succ, Nat.add_zero] at hmax ⊢
    rw [Finset.sum_congr rfl fun i _ => congrArg (fun j => |qs.getD i 0 * x ^ j|) (hk i)] at hmax
    rw [Finset.sum_congr rfl fun i _ => congrArg (fun j => qs.getD i 0 * x ^ j) (hk i)]
    have hnn : 0 ≤ ∑ i ∈ Finset.range qs.length, |qs.getD i 0 * x ^ (k + 1 + i)| := Finset.sum_nonneg fun i _ => abs_nonneg _
    have hT0 : 0 ≤ T := (abs_nonneg _).trans hST
    have ht := abs_nonneg (c * x ^ k)
    have hcomm : x ^ k * c = c * x ^ k := mul_comm _ _
    have s1 := int_mul hf hF hc (by rw [hcomm]; omega)
    have hadd := abs_add_le S (c * x ^ k)
    have s2 := int_add hf hR s1 (by rw [hcomm]; omega)
    rw [hcomm] at s2
    have := ih (k + 1) (f.add R (f.mul F cx)) (f.mul F vx) (S + c * x ^ k) (T + |c * x ^ k|)
      (fun i h1 h2 => hpow i (by omega) (by simp only [List.length_cons]; omega)) s2 (fun hne => by
        have hl : 0 < cs.length := List.length_pos_iff.2 hne
        have hb := hpow (k + 1) (by omega) (by simp only [List.length_cons]; omega)
        rw [pow_succ] at hb ⊢
        exact int_mul hf hF hvx hb) (by omega) (by omega)
    rw [polyLoop]
    rwa [show S + c * x ^ k + ∑ i ∈ Finset.range qs.length, qs.getD i 0 * x ^ (k + 1 + i) =
      S + (∑ i ∈ Finset.range qs.length, qs.getD i 0 * x ^ (k + 1 + i) + c * x ^ k) by ring] at this

/-- With integers for the coefficients and for the argument, the value is exact as long as the powers and the sum of the magnitudes of
the terms are below `2^24` or `2^53`. -/
theorem C106_integers (f : Fmt) (hf : f = .double ∨ f = .single) (c0 vx : Flt) (cs : List Flt) (q0 x : Int) (qs : List Int)
    (h0 : Stands f c0 q0) (hx : Stands f vx x) (hc : List.Forall₂ (fun c (q : Int) => Stands f c q) cs qs)
    (hpow : ∀ i ≤ qs.length, |x ^ i| < 2 ^ f.prec)
    (hmax : ∑ i ∈ Finset.range (qs.length + 1), |(q0 :: qs).getD i 0 * x ^ i| < 2 ^ f.prec) :
    Stands f (polynomial f c0 cs vx) ((∑ i ∈ Finset.range (qs.length + 1), (q0 :: qs).getD i 0 * x ^ i : Int) : ℚ) := by
  rw [Finset.sum_range_succ'] at hmax ⊢
  simp only [List.getD_cons_zero, List.getD_cons_succ, pow_zero, mul_one] at hmax ⊢
  rw [add_comm] at hmax ⊢
  simp only [add_comm _ 1] at hmax ⊢
  have hl := hc.length_eq
  exact polyLoop_int hf hx hc 1 c0 vx q0 |q0| (fun i _ h2 => hpow i (by omega)) h0 (fun _ => by rw [pow_one]; exact hx) le_rfl hmax

/-- At zero the value is the first coefficient. -/
theorem C106_at_zero (f : Fmt) (hf : f = .double ∨ f = .single) (c0 vx : Flt) (cs : List Flt) (q0 : ℚ) (h0 : Stands f c0 q0)
    (hx : Stands f vx 0) (hc : ∀ c ∈ cs, ∃ q, Stands f c q) : Stands f (polynomial f c0 cs vx) q0 := by
  have key : ∀ (cs : List Flt) (R F : Flt), (∀ c ∈ cs, ∃ q, Stands f c q) → Stands f R q0 → Stands f F 0 →
      Stands f (polyLoop f vx cs R F) q0 := by
    intro cs
    induction cs with
    | nil => intro R F _ hR _; exact hR
    | cons c cs ih =>
      intro R F hc hR hF
      obtain ⟨q, hq⟩ := hc c (by simp)
      have hm : |(0 : ℚ)| ≤ f.maxVal := by rw [abs_zero]; linarith [(fmt_consts hf).2.2.2, (by norm_num : (0 : ℚ) ≤ 2 ^ 100)]
      have s1 := mul_stands hf hF hq (by rw [zero_mul]; exact hm)
      rw [zero_mul, Fmt.srnd_zero] at s1
      have s2 := add_stands hf hR s1 (by rw [add_zero]; exact hR.abs_le)
      rw [add_zero, Fmt.srnd_self (prec_pos hf) hR.binary] at s2
      have s3 := mul_stands hf hF hx (by rw [zero_mul]; exact hm)
      rw [zero_mul, Fmt.srnd_zero] at s3
      exact ih _ _ (fun c h => hc c (by simp [h])) s2 s3
  exact key cs c0 vx hc h0 hx

/-! ### Infinities -/

/-- A linear function at an infinite argument: infinite in the direction of the slope; not a number if the slope is zero. -/
theorem C106_linear_infinite (f : Fmt) (s0 s1 s : Bool) (m0 m1 : ℚ) :
    (m1 ≠ 0 → polynomial f (.fin s0 m0) [.fin s1 m1] (.inf s) = .inf (s != s1)) ∧
    (m1 = 0 → ∃ s', polynomial f (.fin s0 m0) [.fin s1 m1] (.inf s) = .nan s') := by
  constructor
  · intro h; simp [polynomial, polyLoop, Fmt.mul, Fmt.add, h]
  · intro h; exact ⟨false, by simp [polynomial, polyLoop, Fmt.mul, Fmt.add, h]⟩

/-- All terms `c * p`, `c * p * s`, `c * p * s * s`, … are infinite with sign `t`, for an infinite factor with sign `p` and an infinite
argument with sign `s`. -/
def SameInfinity (s t : Bool) : Bool → List (Bool × ℚ) → Prop
  | _, [] => True
  | p, c :: cs => c.2 ≠ 0 ∧ (p != c.1) = t ∧ SameInfinity s t (p != s) cs

theorem polyLoop_nan (f : Fmt) (v : Flt) : ∀ (cs : List Flt) (s : Bool) (x : Flt), ∃ s', polyLoop f v cs (.nan s) x = .nan s'
  | [], s, _ => ⟨s, rfl⟩
  | _ :: cs, _, _ => by
    rw [polyLoop]
    exact polyLoop_nan f v cs false _

theorem polyLoop_inf (f : Fmt) (s t : Bool) : ∀ (cs : List (Bool × ℚ)) (p : Bool),
    (SameInfinity s t p cs → polyLoop f (.inf s) (cs.map fun c => .fin c.1 c.2) (.inf t) (.inf p) = .inf t) ∧
    (¬ SameInfinity s t p cs → ∃ s', polyLoop f (.inf s) (cs.map fun c => .fin c.1 c.2) (.inf t) (.inf p) = .nan s')
  | [], p => ⟨fun _ => rfl, fun h => absurd trivial h⟩
  | c :: cs, p => by
    obtain ⟨i1, i2⟩ := polyLoop_inf f s t cs (p != s)
    rw [List.map_cons, polyLoop]
    have hf : f.mul (.inf p) (.inf s) = .inf (p != s) := rfl
    rw [hf, SameInfinity]
    by_cases h0 : c.2 = 0
    · have e : f.add (.inf t) (f.mul (.inf p) (.fin c.1 c.2)) = .nan false := by simp [Fmt.mul, Fmt.add, h0]
      rw [e]
      exact ⟨fun h => absurd h0 h.1, fun _ => polyLoop_nan _ _ _ _ _⟩
    · by_cases h1 : (p != c.1) = t
      · have e : f.add (.inf t) (f.mul (.inf p) (.fin c.1 c.2)) = .inf t := by simp [Fmt.mul, Fmt.add, h0, h1]
        rw [e]
        exact ⟨fun h => i1 h.2.2, fun h => i2 fun h' => h ⟨h0, h1, h'⟩⟩
      · have e : f.add (.inf t) (f.mul (.inf p) (.fin c.1 c.2)) = .nan false := by
          simp [Fmt.mul, Fmt.add, h0, Ne.symm h1]
        rw [e]
        exact ⟨fun h => absurd h.2.1 h1, fun _ => polyLoop_nan _ _ _ _ _⟩

theorem sameInfinity_iff (s t : Bool) : ∀ (cs : List (Bool × ℚ)) (p : Bool), SameInfinity s t p cs ↔
    ∀ i (h : i < cs.length), cs[i].2 ≠ 0 ∧ ((if i % 2 = 0 then p else p != s) != cs[i].1) = t
  | [], p => by simp [SameInfinity]
  | c :: cs, p => by
    rw [SameInfinity, sameInfinity_iff s t cs]
    constructor
    · rintro ⟨h0, h1, h2⟩ i hi
      cases i with
      | zero => exact ⟨h0, by simpa using h1⟩
      | succ i =>
        have := h2 i (by simpa using hi)
        refine ⟨this.1, ?_⟩
        rw [← this.2]
        rcases Nat.mod_two_eq_zero_or_one i with e | e
        · rw [if_pos e, if_neg (by omega)]; rfl
        · rw [if_pos (show (i + 1) % 2 = 0 by omega), if_neg (show ¬ i % 2 = 0 by omega)]
          cases p <;> cases s <;> rfl
    · intro h
      refine ⟨(h 0 (by simp)).1, (h 0 (by simp)).2, fun i hi => ?_⟩
      have := h (i + 1) (by simpa using hi)
      refine ⟨this.1, ?_⟩
      rw [← this.2]
      rcases Nat.mod_two_eq_zero_or_one i with e | e
      · rw [if_pos e, if_neg (by omega)]; rfl
      · rw [if_pos (show (i + 1) % 2 = 0 by omega), if_neg (show ¬ i % 2 = 0 by omega)]
        cases p <;> cases s <;> rfl

/-- Any polynomial at an infinite argument. If all coefficients but the first differ from zero and all their terms have the same
sign, the value is infinite with that sign. In all other cases it is not a number, even if the polynomial tends to infinity. Term
`i + 1` has the sign of its coefficient at positive infinity and for odd `i`, and the opposite one otherwise. -/
theorem C106_infinite (f : Fmt) (s0 s : Bool) (m0 : ℚ) (cs : List (Bool × ℚ)) (hne : cs ≠ []) :
    (∀ t, (∀ i (h : i < cs.length), cs[i].2 ≠ 0 ∧ (cs[i].1 != (s && i % 2 == 0)) = t) →
      polynomial f (.fin s0 m0) (cs.map fun c => .fin c.1 c.2) (.inf s) = .inf t) ∧
    ((∀ t, ¬ ∀ i (h : i < cs.length), cs[i].2 ≠ 0 ∧ (cs[i].1 != (s && i % 2 == 0)) = t) →
      ∃ s', polynomial f (.fin s0 m0) (cs.map fun c => .fin c.1 c.2) (.inf s) = .nan s') := by
  have key : ∀ t, (∀ i (h : i < cs.length), cs[i].2 ≠ 0 ∧ (cs[i].1 != (s && i % 2 == 0)) = t) ↔ SameInfinity s t s cs := by
    intro t
    rw [sameInfinity_iff]
    refine forall_congr' fun i => forall_congr' fun hi => and_congr_right fun _ => ?_
    rcases Nat.mod_two_eq_zero_or_one i with e | e
    · simp only [e, if_true]
      cases s <;> cases cs[i].1 <;> cases t <;> decide
    · simp only [e]
      cases s <;> cases cs[i].1 <;> cases t <;> decide
  simp only [key]
  cases cs with
  | nil => exact absurd rfl hne
  | cons c cs =>
    have hf : f.mul (.inf s) (.inf s) = .inf (s != s) := rfl
    rw [polynomial, List.map_cons, polyLoop, hf]
    by_cases h0 : c.2 = 0
    · have e : f.add (.fin s0 m0) (f.mul (.inf s) (.fin c.1 c.2)) = .nan false := by simp [Fmt.mul, Fmt.add, h0]
      rw [e]
      exact ⟨fun t h => absurd h0 h.1, fun _ => polyLoop_nan _ _ _ _ _⟩
    · have e : f.add (.fin s0 m0) (f.mul (.inf s) (.fin c.1 c.2)) = .inf (s != c.1) := by simp [Fmt.mul, Fmt.add, h0]
      rw [e]
      obtain ⟨i1, i2⟩ := polyLoop_inf f s (s != c.1) cs (s != s)
      constructor
      · rintro t ⟨_, h1, h2⟩
        subst h1
        exact i1 h2
      · intro h
        exact i2 fun h' => h _ ⟨h0, rfl, h'⟩

/-- `1 - x + x^2` tends to infinity at both ends, but is not a number at positive infinity. -/
example : polynomial .double (.fin false 1) [.fin true 1, .fin false 1] (.inf true) = .inf false ∧
    polynomial .double (.fin false 1) [.fin true 1, .fin false 1] (.inf false) = .nan false := by decide +kernel

/-- A power that overflows makes the value not a number even if its coefficient, and all the others but the first, are zero. -/
theorem C106_overflow_refuted : ∃ c0 c vx : Flt, Stands .double c0 1 ∧ Stands .double c 0 ∧ Stands .double vx (2 ^ 600) ∧
    ∃ s, polynomial .double c0 [c, c] vx = .nan s := by
  refine ⟨.fin false 1, .fin false 0, .fin false (2 ^ 600), one_stands (.inl rfl), zero_stands _ (.inl rfl) _, ?_, false, by decide +kernel⟩
  exact ⟨⟨by positivity, by decide +kernel, pow_binary (.inl rfl) 600⟩, rfl⟩

/-! ### The argument that gives a value -/

/-- `intersect_y` is the exact solution up to rounding, if nothing overflows. -/
theorem C106_intersect (f : Fmt) (hf : f = .double ∨ f = .single) (co cs cy : Flt) (o s y : ℚ) (ho : Stands f co o) (hs : Stands f cs s)
    (hy : Stands f cy y) (h0 : s ≠ 0) (h1 : |y - o| ≤ f.maxVal) (h2 : 2 * |(y - o) / s| ≤ f.maxVal) :
    ∃ v, Stands f (intersectY f co cs cy) v ∧
      |v - (y - o) / s| ≤ ((1 + 1 / 2 ^ f.prec) ^ 2 - 1) * |(y - o) / s| + 2 ^ f.emin / 2 := by
  obtain ⟨n1, -, -, -⟩ := fmt_consts hf
  have hu0 : (0 : ℚ) < 1 / 2 ^ f.prec := by positivity
  have hu2 : 1 / (2 : ℚ) ^ f.prec ≤ 1 := by
    rw [div_le_one (by positivity)]; linarith [(by norm_num : (1 : ℚ) ≤ 2 ^ 24)]
  have hdiv : ∀ z : ℚ, z / 2 ^ f.prec = z * (1 / 2 ^ f.prec) := by intro z; ring
  generalize 1 / (2 : ℚ) ^ f.prec = u at hu0 hu2 hdiv
  have s1 := sub_stands hf hy ho h1
  have e1 := srnd_rel (f := f) (prec_pos hf) (q := y - o) (by
    rw [sub_eq_add_neg]; exact multiple_add (binary_mul hy.binary) (multiple_neg (binary_mul ho.binary)))
  rw [hdiv] at e1
  generalize f.srnd (y - o) = d at s1 e1
  have hd : |d / s - (y - o) / s| ≤ |(y - o) / s| * u := by
    rw [← sub_div, abs_div, abs_div, div_mul_eq_mul_div]
    exact div_le_div_of_nonneg_right e1 (abs_nonneg _)
  have hds : |d / s| ≤ |(y - o) / s| * (1 + u) := by
    have t := abs_add_le ((y - o) / s) (d / s - (y - o) / s)
    have e : (y - o) / s + (d / s - (y - o) / s) = d / s := by ring
    rw [e] at t
    linarith
  have hq := abs_nonneg ((y - o) / s)
  have s2 := div_stands hf s1 hs h0 (by
    refine hds.trans (le_trans ?_ h2)
    have : |(y - o) / s| * (1 + u) ≤ |(y - o) / s| * 2 := mul_le_mul_of_nonneg_left (by linarith) hq
    linarith)
  refine ⟨_, s2, ?_⟩
  have e2 := srnd_err (f := f) (d / s)
  rw [hdiv] at e2
  have t := abs_add_le (f.srnd (d / s) - d / s) (d / s - (y - o) / s)
  have e : f.srnd (d / s) - d / s + (d / s - (y - o) / s) = f.srnd (d / s) - (y - o) / s := by ring
  rw [e] at t
  have h3 : |d / s| * u ≤ |(y - o) / s| * (1 + u) * u := mul_le_mul_of_nonneg_right hds hu0.le
  have h4 : |(y - o) / s| * (1 + u) * u + |(y - o) / s| * u = ((1 + u) ^ 2 - 1) * |(y - o) / s| := by ring
  linarith

/-- A horizontal line: infinite, with the sign of the quotient, or not a number if the value is that of the line. -/
theorem C106_intersect_horizontal (f : Fmt) (hf : f = .double ∨ f = .single) (co cy : Flt) (o y : ℚ) (z : Bool) (ho : Stands f co o)
    (hy : Stands f cy y) (h1 : |y - o| ≤ f.maxVal) :
    (y = o → ∃ s, intersectY f co (.fin z 0) cy = .nan s) ∧ (y ≠ o → intersectY f co (.fin z 0) cy = .inf (decide (y < o) != z)) := by
  have s1 := sub_stands hf hy ho h1
  obtain ⟨s, m, e, hm⟩ := s1.fin
  have hmz : m = 0 ↔ f.srnd (y - o) = 0 := by
    rw [← hm]; cases s <;> simp [Flt.val]
  unfold intersectY
  rw [e]
  constructor
  · intro h
    have : m = 0 := hmz.2 (by rw [h, sub_self, Fmt.srnd_zero])
    exact ⟨false, by simp [Fmt.div, this]⟩
  · intro h
    have h0 : y - o ≠ 0 := sub_ne_zero.2 h
    have : m ≠ 0 := by
      intro hm0
      have hz := hmz.1 hm0
      have e1 := srnd_rel (f := f) (prec_pos hf) (q := y - o) (by
        rw [sub_eq_add_neg]; exact multiple_add (binary_mul hy.binary) (multiple_neg (binary_mul ho.binary)))
      rw [hz, zero_sub, abs_neg, le_div_iff₀ (by positivity)] at e1
      have hpos := abs_pos.2 h0
      have h24 := (fmt_consts hf).1
      have : |y - o| * 2 ≤ |y - o| * 2 ^ f.prec := mul_le_mul_of_nonneg_left (by linarith [(by norm_num : (2 : ℚ) ≤ 2 ^ 24)]) hpos.le
      linarith
    have hmpos : 0 < m := by
      have := s1.1
      rw [e] at this
      exact lt_of_le_of_ne this.1 (Ne.symm ‹m ≠ 0›)
    have hs : s = decide (y < o) := by
      rcases lt_or_gt_of_ne h with hlt | hlt
      · rw [decide_eq_true hlt]
        by_contra hc
        have hs : s = false := by simpa using hc
        have h2 : 0 ≤ f.srnd (o - y) := srnd_pos_le (by linarith)
        rw [← neg_sub, Fmt.srnd_neg, ← hm, hs] at h2
        simp only [Flt.val, Bool.false_eq_true, if_false] at h2
        linarith
      · rw [decide_eq_false (not_lt.2 hlt.le)]
        by_contra hc
        have hs : s = true := by simpa using hc
        have h2 : 0 ≤ f.srnd (y - o) := srnd_pos_le (by linarith)
        rw [← hm, hs] at h2
        simp only [Flt.val, if_true] at h2
        linarith
    rw [← hs]
    simp only [Fmt.div, if_true, if_neg this]

/-- A polynomial that the theorems apply to, `1 - 3 x + 2 x^2` at 5. -/
example : Stands .double (polynomial .double (.fin false (1 / 2 ^ 0)) [.fin true (3 / 2 ^ 0), .fin false (2 / 2 ^ 0)] (.fin false (5 / 2 ^ 0)))
    ((36 : Int) : ℚ) := by
  have h1 := stands_double false (n := 1) (e := 0) (by norm_num) (by norm_num)
  have h2 := stands_double true (n := 3) (e := 0) (by norm_num) (by norm_num)
  have h3 := stands_double false (n := 2) (e := 0) (by norm_num) (by norm_num)
  have h4 := stands_double false (n := 5) (e := 0) (by norm_num) (by norm_num)
  have e : ∀ x : ℚ, x / 2 ^ 0 = x := by norm_num
  simp only [Bool.false_eq_true, if_false, if_true, e, Nat.cast_one, Nat.cast_ofNat] at h1 h2 h3 h4 ⊢
  have := C106_integers .double (.inl rfl) (.fin false 1) (.fin false 5) [.fin true 3, .fin false 2] 1 5 [-3, 2] (by simpa using h1)
    (by simpa using h4) (.cons (by simpa using h2) (.cons (by simpa using h3) .nil)) (by decide) (by decide)
  exact this

/-- The hypotheses of the error bound are met by `1 - 3 x` at 5. -/
example : ∃ v, Stands .double (polynomial .double (.fin false (1 / 2 ^ 0)) [.fin true (3 / 2 ^ 0)] (.fin false (5 / 2 ^ 0))) v ∧
    |v - ∑ i ∈ Finset.range 2, [(1 : ℚ), -3].getD i 0 * 5 ^ i| ≤
      ((1 + 1 / 2 ^ 53) ^ 2 - 1) * ∑ i ∈ Finset.range 2, |[(1 : ℚ), -3].getD i 0 * 5 ^ i| := by
  have h1 := stands_double false (n := 1) (e := 0) (by norm_num) (by norm_num)
  have h2 := stands_double true (n := 3) (e := 0) (by norm_num) (by norm_num)
  have h4 := stands_double false (n := 5) (e := 0) (by norm_num) (by norm_num)
  have e : ∀ x : ℚ, x / 2 ^ 0 = x := by norm_num
  simp only [Bool.false_eq_true, if_false, if_true, e, Nat.cast_one, Nat.cast_ofNat] at h1 h2 h4 ⊢
  have hm : (2 : ℚ) ^ Fmt.double.prec * 2 ^ Fmt.double.emin ≤ 1 := by decide +kernel
  refine C106_error_partial .double (.inl rfl) (.fin false 1) (.fin false 5) [.fin true 3] 1 5 [-3] h1 h4 (.cons h2 .nil)
    (by decide) ?_ ?_ (by decide +kernel)
  · intro i h1 h2
    obtain rfl : i = 1 := by simp at h2; omega
    exact ⟨hm.trans (by norm_num), by decide +kernel⟩
  · intro i c h
    obtain ⟨h1, h2⟩ := List.getElem?_eq_some_iff.1 h
    obtain rfl : i = 0 := by simp at h1; omega
    obtain rfl : c = -3 := h2.symm
    exact .inr (hm.trans (by norm_num))

end Flut
