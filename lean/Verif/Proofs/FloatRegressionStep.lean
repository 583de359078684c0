import Verif.Model.FloatRegressionStep
import Verif.Spec.FloatRegressionStep
import Verif.Props.FloatRegression

/-! # Lemmas about linear regression with a fixed step in floating-point arithmetic -/

namespace Flut

open Spec FloatMath

/-! ## Relative errors -/

/-- The first value is the second one up to `k` rounding errors of relative size `u`. -/
def Rel (u k x x0 : ℚ) : Prop := |x - x0| ≤ k * u * |x0|

section Rel

variable {u k l x x0 y y0 : ℚ}

theorem Rel.refl (u x : ℚ) : Rel u 0 x x := by unfold Rel; simp

theorem Rel.mono (h : Rel u k x x0) (hu : 0 ≤ u) (hkl : k ≤ l) : Rel u l x x0 :=
  le_trans h (mul_le_mul_of_nonneg_right (mul_le_mul_of_nonneg_right hkl hu) (abs_nonneg _))

theorem Rel.mul (hx : Rel u k x x0) (hy : Rel u l y y0) (hu : 0 ≤ u) (hu1 : u ≤ 1 / 1000000) (hk0 : 0 ≤ k) (hl0 : 0 ≤ l) (hk : k ≤ 20) (hl : l ≤ 20) :
    Rel u (k + l + 1 / 1000) (x * y) (x0 * y0) := by
  unfold Rel at *
  have e : x * y - x0 * y0 = (x - x0) * (y - y0) + (x - x0) * y0 + x0 * (y - y0) := by ring
  rw [e]
  have t := (abs_add_le ((x - x0) * (y - y0) + (x - x0) * y0) (x0 * (y - y0))).trans (add_le_add_left (abs_add_le _ _) _)
  rw [abs_mul (x - x0) (y - y0), abs_mul (x - x0) y0, abs_mul x0 (y - y0)] at t
  rw [abs_mul x0 y0]
  have t1 := mul_le_mul hx hy (abs_nonneg _) (by positivity)
  have t2 := mul_le_mul_of_nonneg_right hx (abs_nonneg y0)
  have t3 := mul_le_mul_of_nonneg_left hy (abs_nonneg x0)
  have hkl : k * l ≤ 400 := by nlinarith
  have h1 : k * l * u ≤ 1 / 1000 := by
    have := mul_le_mul hkl hu1 hu (by norm_num)
    linarith
  have h2 := mul_le_mul_of_nonneg_right h1 (show 0 ≤ u * (|x0| * |y0|) by positivity)
  have e1 : k * u * |x0| * (l * u * |y0|) = k * l * u * (u * (|x0| * |y0|)) := by ring
  rw [e1] at t1
  have e2 : (k + l + 1 / 1000) * u * (|x0| * |y0|) = 1 / 1000 * (u * (|x0| * |y0|)) + k * u * |x0| * |y0| + |x0| * (l * u * |y0|) := by ring
  rw [e2]
  linarith

theorem Rel.inv (hx : Rel u k x x0) (hu : 0 ≤ u) (hu1 : u ≤ 1 / 1000000) (hk0 : 0 ≤ k) (hk : k ≤ 20) (h0 : x0 ≠ 0) :
    x ≠ 0 ∧ Rel u (k + 1 / 1000) x⁻¹ x0⁻¹ := by
  unfold Rel at *
  have hp : 0 < |x0| := abs_pos.2 h0
  have hku : k * u ≤ 1 / 50000 := by
    have := mul_le_mul hk hu1 hu (by norm_num)
    linarith
  have h1 : |x0| * (1 - k * u) ≤ |x| := by
    have := abs_sub_abs_le_abs_sub x0 x
    rw [abs_sub_comm] at this
    linarith
  have h2 : 0 < |x| := lt_of_lt_of_le (mul_pos hp (by linarith)) h1
  have hx0 : x ≠ 0 := abs_pos.1 h2
  refine ⟨hx0, ?_⟩
  have e : x⁻¹ - x0⁻¹ = (x0 - x) / (x * x0) := by field_simp
  rw [e, abs_div, abs_mul, abs_inv, div_le_iff₀ (by positivity), abs_sub_comm]
  refine hx.trans ?_
  have e2 : (k + 1 / 1000) * u * |x0|⁻¹ * (|x| * |x0|) = (k + 1 / 1000) * u * |x| := by field_simp
  rw [e2]
  have h3 := mul_le_mul_of_nonneg_left h1 (show 0 ≤ (k + 1 / 1000) * u by positivity)
  have h4 : k ≤ (k + 1 / 1000) * (1 - k * u) := by
    have := mul_le_mul hku (show k + 1 / 1000 ≤ 21 by linarith) (by positivity) (by norm_num)
    nlinarith
  have h5 := mul_le_mul_of_nonneg_right h4 (show 0 ≤ u * |x0| by positivity)
  linarith

theorem Rel.add (hx : Rel u k x x0) (hy : Rel u k y y0) (h : 0 ≤ x0 * y0) : Rel u k (x + y) (x0 + y0) := by
  unfold Rel at *
  have e : x + y - (x0 + y0) = (x - x0) + (y - y0) := by ring
  have h2 : |x0 + y0| = |x0| + |y0| := (abs_add_eq_add_abs_iff _ _).2 (by
    rcases mul_nonneg_iff.1 h with h | h
    · exact .inl h
    · exact .inr h)
  rw [e, h2, mul_add]
  exact (abs_add_le _ _).trans (add_le_add hx hy)

theorem Rel.abs_le (hx : Rel u k x x0) (hu : 0 ≤ u) (hu1 : u ≤ 1 / 1000000) (hk0 : 0 ≤ k) (hk : k ≤ 20) : |x| ≤ 2 * |x0| ∧ |x0| ≤ 2 * |x| := by
  unfold Rel at hx
  have hku : k * u ≤ 1 / 50000 := by
    have := mul_le_mul hk hu1 hu (by norm_num)
    linarith
  have h3 := mul_le_mul_of_nonneg_right hku (abs_nonneg x0)
  have h1 := abs_sub_abs_le_abs_sub x0 x
  have h2 := abs_sub_abs_le_abs_sub x x0
  rw [abs_sub_comm] at h1
  have := abs_nonneg x0
  constructor <;> linarith

/-- Rounding adds one error, away from where numbers are no longer equally precise. -/
theorem Rel.round {f : Fmt} (hf : f = .double ∨ f = .single) (hx : Rel (1 / 2 ^ f.prec) k x x0) (hk0 : 0 ≤ k) (hk : k ≤ 19)
    (hn : (2 : ℚ) ^ f.prec * 2 ^ f.emin ≤ |x0|) : Rel (1 / 2 ^ f.prec) (k + 1 + 1 / 1000) (f.srnd x) x0 := by
  have hu : (0 : ℚ) ≤ 1 / 2 ^ f.prec := by positivity
  have hu1 : 1 / (2 : ℚ) ^ f.prec ≤ 1 / 1000000 := by
    have := (fmt_consts hf).1
    exact one_div_le_one_div_of_le (by norm_num) (le_trans (by norm_num) this)
  obtain ⟨-, h2⟩ := hx.abs_le hu hu1 hk0 (by linarith)
  have h3 := srnd_rel_normal (f := f) (q := x) (hn.trans h2)
  have h4 : Rel (1 / 2 ^ f.prec) 1 (f.srnd x) x := by
    unfold Rel
    rw [one_mul, mul_comm, mul_one_div]
    exact h3
  unfold Rel at *
  have e : f.srnd x - x0 = (f.srnd x - x) + (x - x0) := by ring
  rw [e]
  refine (abs_add_le _ _).trans ?_
  have h5 : |x| ≤ (1 + k * (1 / 2 ^ f.prec)) * |x0| := by
    have := abs_sub_abs_le_abs_sub x x0
    linarith
  generalize 1 / (2 : ℚ) ^ f.prec = u at *
  have hku : k * u ≤ 1 / 50000 := by
    have := mul_le_mul (show k ≤ 20 by linarith) hu1 hu (by norm_num)
    linarith
  have h6 := mul_le_mul_of_nonneg_left h5 hu
  have h7 := mul_le_mul_of_nonneg_right hku (show 0 ≤ u * |x0| by positivity)
  have h8 : 0 ≤ u * |x0| := by positivity
  linarith

end Rel

/-! ## The positions -/

/-- The positions as they are stepped through. -/
def stepPos (f : Fmt) (step : Flt) : Nat → Flt → List Flt
  | 0, _ => []
  | n + 1, x => x :: stepPos f step n (f.add x step)

theorem stepPos_length (f : Fmt) (st : Flt) : ∀ n x, (stepPos f st n x).length = n
  | 0, _ => rfl
  | n + 1, x => by simp [stepPos, stepPos_length f st n]

theorem fregressionStepLoop_eq (f : Fmt) (a b st : Flt) (w : List Flt) : ∀ x num,
    FloatMath.regressionStepLoop f a b st w x num = (List.zipWith (devTerm f a b) (stepPos f st w.length x) w).foldl f.add num := by
  induction w with
  | nil => intro x num; rfl
  | cons y w ih =>
    intro x num
    rw [FloatMath.regressionStepLoop, ih]
    rfl

theorem sizeLessOne_eq (f : Fmt) {n : Nat} (h0 : 0 < n) (h1 : n ≤ 2 ^ 64) : sizeLessOne f n = f.ofRat (n - 1 : Nat) := by
  unfold sizeLessOne
  have : (n + (2 ^ 64 - 1)) % 2 ^ 64 = n - 1 := by
    have e : n + (2 ^ 64 - 1) = (n - 1) + 2 ^ 64 := by omega
    rw [e, Nat.add_mod_right, Nat.mod_eq_of_lt (by omega)]
  rw [this]

section Near

variable {f : Fmt} {A B : ℚ}

theorem stepPos_near (hf : f = .double ∨ f = .single) {n : Nat} (hnu : (n : ℚ) * (1 / 2 ^ f.prec) ≤ 1 / 1000) {st : Flt} {x0 d : ℚ}
    (hst : Stands f st d) (hA : ∀ i < n, |x0 + (i : ℚ) * d| ≤ A) (hmax : 8 * A ≤ f.maxVal) : ∀ (m k : Nat) (x : Flt) (x' : ℚ), k + m = n →
    Stands f x x' → |x' - (x0 + k * d)| ≤ ((1 + 1 / 2 ^ f.prec) ^ k - 1) * A →
    ∃ p, List.Forall₂ (Stands f) (stepPos f st m x) p ∧
      List.Forall₂ (fun y z => |y - z| ≤ 8 / 7 * (n * (1 / 2 ^ f.prec) * A)) p ((List.range' k m).map fun i : Nat => x0 + i * d)
  | 0, k, x, x', _, _, _ => ⟨[], .nil, .nil⟩
  | m + 1, k, x, x', hk, hx, he => by
    have hu0 : (0 : ℚ) < 1 / 2 ^ f.prec := by positivity
    have hAk := hA k (by omega)
    have hA0 : 0 ≤ A := (abs_nonneg _).trans hAk
    have hkn : (k : ℚ) ≤ n := by exact_mod_cast (by omega : k ≤ n)
    have hku : (k : ℚ) * (1 / 2 ^ f.prec) ≤ n * (1 / 2 ^ f.prec) := mul_le_mul_of_nonneg_right hkn hu0.le
    have hp := one_add_pow_le hu0.le k (by linarith)
    have hp1 : 1 ≤ (1 + 1 / (2 : ℚ) ^ f.prec) ^ k := one_le_pow₀ (by linarith)
    have h1 : |x' - (x0 + k * d)| ≤ 8 / 7 * (n * (1 / 2 ^ f.prec) * A) := by
      refine he.trans ?_
      have := mul_le_mul_of_nonneg_right (show (1 + 1 / (2 : ℚ) ^ f.prec) ^ k - 1 ≤ 8 / 7 * (n * (1 / 2 ^ f.prec)) by linarith) hA0
      linarith
    rcases m with _ | m
    · exact ⟨[x'], .cons hx .nil, .cons h1 .nil⟩
    have hA' := hA (k + 1) (by omega)
    push_cast at hA'
    have hs : |x' + d - (x0 + (k + 1) * d)| ≤ ((1 + 1 / 2 ^ f.prec) ^ k - 1) * A := by
      have e : x' + d - (x0 + (k + 1) * d) = x' - (x0 + k * d) := by ring
      rw [e]; exact he
    have hxd : |x' + d| ≤ (1 + 1 / 2 ^ f.prec) ^ k * A := by
      have := abs_sub_abs_le_abs_sub (x' + d) (x0 + (k + 1) * d)
      linarith
    have hsm : |x' + d| ≤ f.maxVal := by
      refine hxd.trans ?_
      have := mul_le_mul_of_nonneg_right (show (1 + 1 / (2 : ℚ) ^ f.prec) ^ k ≤ 8 by linarith) hA0
      linarith
    have hr := srnd_rel (f := f) (prec_pos hf) (q := x' + d) (multiple_add (binary_mul hx.binary) (binary_mul hst.binary))
    rw [div_eq_mul_one_div] at hr
    obtain ⟨p, p1, p2⟩ := stepPos_near hf hnu hst hA hmax (m + 1) (k + 1) (f.add x st) (f.srnd (x' + d)) (by omega) (add_stands hf hx hst hsm) (by
      push_cast
      have e : f.srnd (x' + d) - (x0 + (k + 1) * d) = (f.srnd (x' + d) - (x' + d)) + (x' + d - (x0 + (k + 1) * d)) := by ring
      rw [e]
      refine (abs_add_le _ _).trans ?_
      have := mul_le_mul_of_nonneg_right hxd hu0.le
      rw [pow_succ]
      linarith)
    refine ⟨x' :: p, .cons hx p1, ?_⟩
    rw [List.range'_succ]
    exact .cons h1 p2

/-- The sum of the products of deviations from given means. -/
theorem devSum_near_of (hf : f = .double ∨ f = .single) {v w : List Flt} {p q : List ℚ} {a b : Flt} {a' b' ma mb : ℚ} (hv : List.Forall₂ (Stands f) v p)
    (hw : List.Forall₂ (Stands f) w q) (hl : v.length = w.length) (h0 : p ≠ []) (hA : ∀ x ∈ p, |x| ≤ A) (hB : ∀ x ∈ q, |x| ≤ B)
    (hnu : (p.length : ℚ) * (1 / 2 ^ f.prec) ≤ 1 / 1000) (hmA : 8 * (p.length * A) ≤ f.maxVal) (hmB : 8 * (p.length * B) ≤ f.maxVal)
    (hmAB : 8 * (p.length * (A * B)) ≤ f.maxVal) (ha : Stands f a a') (hb : Stands f b b') (hma : |ma| ≤ A) (hmb : |mb| ≤ B)
    (ea : |a' - ma| ≤ 8 / 7 * (p.length * (1 / 2 ^ f.prec)) * A + 2 ^ f.emin / 2) (eb : |b' - mb| ≤ 8 / 7 * (p.length * (1 / 2 ^ f.prec)) * B + 2 ^ f.emin / 2) :
    ∃ s, Stands f (devSum f a b v w) s ∧
      |s - deviations ma mb p q| ≤ p.length * (22 * (p.length * (1 / 2 ^ f.prec) * (A * B)) + 2 * (2 ^ f.emin * (A + B + 1))) := by
  have hlv := hv.length_eq
  have hlw := hw.length_eq
  have hpq : q.length = p.length := by omega
  obtain ⟨hu0, hη0, hη1, hη2, hM⟩ := stat_consts hf
  have hn1 : (1 : ℚ) ≤ p.length := by
    have : 0 < p.length := List.length_pos_iff.2 h0
    exact_mod_cast this
  obtain ⟨t, t1, t2, t3, t4⟩ := terms_near hf hn1 hnu hmA hmB hmAB ha hb hma hmb ea eb hv hw hl hA hB
  have hA0 : 0 ≤ A := (abs_nonneg _).trans hma
  have hB0 : 0 ≤ B := (abs_nonneg _).trans hmb
  have hS := sum_abs_le t4
  rw [t2] at hS
  have hS0 : 0 ≤ (t.map abs).sum := List.sum_nonneg (by
    intro z hz; obtain ⟨w, -, rfl⟩ := List.mem_map.1 hz; exact abs_nonneg w)
  have hlen : (List.zipWith (devTerm f a b) v w).length = p.length := by
    rw [List.length_zipWith]; omega
  have hpow := one_add_pow_le hu0.le p.length (by linarith)
  have hpow1 : 1 ≤ (1 + 1 / (2 : ℚ) ^ f.prec) ^ p.length := one_le_pow₀ (by linarith)
  have hAB : 0 ≤ A * B := by positivity
  have k4 : 2 ^ f.emin * (A + B) ≤ 1 / 1000 * (A + B) := mul_le_mul_of_nonneg_right hη1 (by linarith)
  have hT : (t.map abs).sum ≤ p.length * (402 / 100 * (A * B)) + 122 / 100000 * (p.length * A + p.length * B) + 3 / 5 * (p.length * 2 ^ f.emin) := by
    refine hS.trans ?_
    have := mul_le_mul_of_nonneg_left k4 (show (0 : ℚ) ≤ p.length by linarith)
    linarith
  have hpη : (p.length : ℚ) * 2 ^ f.emin ≤ 1 := by
    obtain ⟨h24, -, -, -⟩ := fmt_consts hf
    have hp : (p.length : ℚ) ≤ 2 ^ f.prec / 1000 := by
      rw [mul_one_div, div_le_iff₀ (by positivity)] at hnu
      linarith
    have hpe : (2 : ℚ) ^ f.prec * 2 ^ f.emin ≤ 1 := by
      rcases hf with rfl | rfl
      · show (2 : ℚ) ^ 53 * 2 ^ (-1074 : Int) ≤ 1
        rw [zpow_neg, ← div_eq_mul_inv]
        exact div_le_one_of_le₀ (by exact_mod_cast pow_le_pow_right₀ (by norm_num : (1 : ℚ) ≤ 2) (by norm_num : 53 ≤ 1074)) (by positivity)
      · show (2 : ℚ) ^ 24 * 2 ^ (-149 : Int) ≤ 1
        norm_num
    have := mul_le_mul_of_nonneg_right hp hη0.le
    linarith
  obtain ⟨s, hs, es⟩ := foldl_add_err hf t1 (zero_stands f hf false) (by
    rw [hlen, abs_zero, zero_add]
    have h2 : (1 + 1 / (2 : ℚ) ^ f.prec) ^ p.length ≤ 101 / 100 := by linarith
    have := mul_le_mul hT h2 (by linarith) (by positivity)
    linarith)
  refine ⟨s, hs, ?_⟩
  rw [hlen, abs_zero, zero_add, zero_add] at es
  have h1 := mul_le_mul (show (1 + 1 / (2 : ℚ) ^ f.prec) ^ p.length - 1 ≤ 8 / 7 * (p.length * (1 / 2 ^ f.prec)) by linarith) hS hS0 (by positivity)
  have e : s - deviations ma mb p q = (s - t.sum) + (t.sum - deviations ma mb p q) := by ring
  rw [e]
  refine (abs_add_le _ _).trans ((add_le_add (es.trans h1) t3).trans ?_)
  generalize (2 : ℚ) ^ f.emin = η at *
  generalize (p.length : ℚ) = n at *
  generalize 1 / (2 : ℚ) ^ f.prec = u at *
  have hw0 : 0 ≤ n * u := by positivity
  have j1 : n * u * (η * (A + B)) ≤ 1 / 1000 * (η * (A + B)) := mul_le_mul_of_nonneg_right hnu (by positivity)
  have j2 : n * u * η ≤ 1 / 1000 * η := mul_le_mul_of_nonneg_right hnu hη0.le
  have e1 : 8 / 7 * (n * u) * (n * (402 / 100 * (A * B) + 122 / 100 * (η * (A + B)) + 3 / 5 * η)) =
      n * (8 / 7 * (402 / 100) * (n * u * (A * B)) + 8 / 7 * (122 / 100) * (n * u * (η * (A + B))) + 8 / 7 * (3 / 5) * (n * u * η)) := by ring
  rw [e1, ← mul_add]
  refine mul_le_mul_of_nonneg_left ?_ (by linarith)
  have hwAB : 0 ≤ n * u * (A * B) := by positivity
  have hηAB : 0 ≤ η * (A + B) := by positivity
  have e2 : η * (A + B + 1) = η * (A + B) + η := by ring
  rw [e2]
  linarith

/-! ## Evenly spaced positions -/

theorem positions_length (x d : ℚ) (n : Nat) : (positions x d n).length = n := by simp [positions]

theorem positions_mean (x d : ℚ) {n : Nat} (hn : 0 < n) : mean (positions x d n) = x + (n - 1) * d / 2 := by
  have h0 : (n : ℚ) ≠ 0 := by positivity
  unfold mean
  rw [positions_length, positions, sum_arith]
  field_simp

theorem zipWith_self_map {α β : Type} (g : α → α → β) (l : List α) : List.zipWith g l l = l.map fun x => g x x := by
  induction l with
  | nil => rfl
  | cons a l ih => simp

theorem positions_deviations (x d : ℚ) {n : Nat} (hn : 0 < n) : deviations (mean (positions x d n)) (mean (positions x d n)) (positions x d n) (positions x d n) =
    d ^ 2 * (n * (n - 1) * (n + 1) / 12) := by
  rw [positions_mean x d hn]
  unfold deviations positions
  rw [zipWith_self_map, List.map_map]
  have e : ((fun y : ℚ => (y - (x + (n - 1) * d / 2)) * (y - (x + (n - 1) * d / 2))) ∘ fun i : Nat => x + (i : ℚ) * d) =
      fun i : Nat => (-((n - 1) * d / 2) + (i : ℚ) * d) * (-((n - 1) * d / 2) + (i : ℚ) * d) := by
    funext i
    simp only [Function.comp]
    ring
  rw [e, sum_arith_sq]
  ring

/-- All positions are between the first and the last. -/
theorem positions_abs {x d A : ℚ} {n : Nat} (h0 : |x| ≤ A) (h1 : |x + (n - 1) * d| ≤ A) (i : Nat) (hi : i < n) : |x + (i : ℚ) * d| ≤ A := by
  have hn1 : (i : ℚ) ≤ n - 1 := by
    have : (i : ℚ) + 1 ≤ n := by exact_mod_cast hi
    linarith
  have hi0 : (0 : ℚ) ≤ i := by positivity
  rw [abs_le] at *
  obtain ⟨a1, a2⟩ := h0
  obtain ⟨b1, b2⟩ := h1
  rcases le_total 0 d with hd | hd
  · have := mul_le_mul_of_nonneg_right hn1 hd
    have := mul_nonneg hi0 hd
    constructor <;> linarith
  · have := mul_le_mul_of_nonpos_right hn1 hd
    have := mul_nonpos_of_nonneg_of_nonpos hi0 hd
    constructor <;> linarith

/-- Small changes to the positions. -/
theorem deviations_near {ma mb e B : ℚ} {p' p q : List ℚ} (h : List.Forall₂ (fun y z => |y - z| ≤ e) p' p) (he : 0 ≤ e) (hl : p.length = q.length)
    (hB : ∀ y ∈ q, |y| ≤ B) (hmb : |mb| ≤ B) : |deviations ma mb p' q - deviations ma mb p q| ≤ p.length * (e * (2 * B)) := by
  induction h generalizing q with
  | nil => simp [deviations]
  | @cons y z p' p hyz _ ih =>
    rcases q with _ | ⟨b, q⟩
    · simp at hl
    have h1 := ih (by simpa using hl) fun y hy => hB y (by simp [hy])
    have h2 := hB b (by simp)
    simp only [deviations, List.zipWith_cons_cons, List.sum_cons, List.length_cons] at h1 ⊢
    have e1 : ((y - ma) * (b - mb) + (List.zipWith (fun x y => (x - ma) * (y - mb)) p' q).sum) -
        ((z - ma) * (b - mb) + (List.zipWith (fun x y => (x - ma) * (y - mb)) p q).sum) = (y - z) * (b - mb) +
        ((List.zipWith (fun x y => (x - ma) * (y - mb)) p' q).sum - (List.zipWith (fun x y => (x - ma) * (y - mb)) p q).sum) := by ring
    rw [e1]
    refine (abs_add_le _ _).trans ?_
    rw [abs_mul]
    have h3 := abs_sub b mb
    have h4 := mul_le_mul hyz (show |b - mb| ≤ 2 * B by linarith) (abs_nonneg _) he
    push_cast
    linarith

/-! ## The middle and the sum of squares -/

theorem pow_small {N d : ℚ} (hN : 2 * N ≤ 1) (h : 2 * N ≤ |d| ^ 3) : 2 * N ≤ |d| ∧ 2 * N ≤ |d| ^ 2 := by
  have h0 := abs_nonneg d
  rcases le_total 1 |d| with h1 | h1
  · exact ⟨hN.trans h1, hN.trans (one_le_pow₀ h1)⟩
  · exact ⟨h.trans (pow_le_of_le_one h0 h1 (by norm_num)), h.trans (pow_le_pow_of_le_one h0 h1 (by norm_num))⟩

theorem pow_large {W M : ℚ} (hM : 1000000 ≤ M) (hW : 0 ≤ W) (h : 4 * W ^ 3 ≤ M) : 4 * W ≤ M ∧ 4 * W ^ 2 ≤ M := by
  rcases le_total W 1 with h1 | h1
  · have : W ^ 2 ≤ 1 := pow_le_one₀ hW h1
    constructor <;> linarith
  · have h2 : W ^ 1 ≤ W ^ 3 := pow_le_pow_right₀ h1 (by norm_num)
    have h3 : W ^ 2 ≤ W ^ 3 := pow_le_pow_right₀ h1 (by norm_num)
    rw [pow_one] at h2
    constructor <;> linarith

theorem normal_small (f : Fmt) (hf : f = .double ∨ f = .single) : 2 * ((2 : ℚ) ^ f.prec * 2 ^ f.emin) ≤ 1 := by
  rcases hf with rfl | rfl
  · show 2 * ((2 : ℚ) ^ 53 * 2 ^ (-1074 : Int)) ≤ 1
    rw [zpow_neg, ← mul_assoc, ← div_eq_mul_inv]
    exact div_le_one_of_le₀ (le_trans (by norm_num) (show (2 : ℚ) ^ 54 ≤ 2 ^ (1074 : Int) by
      exact_mod_cast pow_le_pow_right₀ (by norm_num : (1 : ℚ) ≤ 2) (by norm_num : 54 ≤ 1074))) (by positivity)
  · show 2 * ((2 : ℚ) ^ 24 * 2 ^ (-149 : Int)) ≤ 1
    norm_num

/-- Half the length of the range of positions, as computed. -/
def halfRange (f : Fmt) (st : Flt) (n : Nat) : Flt := f.div (f.mul (sizeLessOne f n) st) (f.ofRat 2)

/-- The sum of squares, as computed from it. -/
def stepDen (f : Fmt) (st h : Flt) : Flt := f.div (f.mul (f.mul h (f.add h st)) (f.add (f.mul (f.ofRat 2) h) st)) (f.mul (f.ofRat 3) st)

section Den

variable {st : Flt} {d : ℚ} {n : Nat}

theorem rel_const (hf : f = .double ∨ f = .single) : (0 : ℚ) ≤ 1 / 2 ^ f.prec ∧ 1 / (2 : ℚ) ^ f.prec ≤ 1 / 1000000 :=
  ⟨by positivity, one_div_le_one_div_of_le (by norm_num) (le_trans (by norm_num) (fmt_consts hf).1)⟩

theorem halfRange_near (hf : f = .double ∨ f = .single) (hst : Stands f st d) (hn2 : 2 ≤ n) (hnp : n < 2 ^ f.prec)
    (hlo : 2 * ((2 : ℚ) ^ f.prec * 2 ^ f.emin) ≤ |d|) (hhi : 4 * (n * |d|) ≤ f.maxVal) :
    ∃ h, Stands f (halfRange f st n) h ∧ Rel (1 / 2 ^ f.prec) (201 / 100) h ((n - 1) * d / 2) := by
  obtain ⟨hu, hu1⟩ := rel_const hf
  have hn64 : n ≤ 2 ^ 64 := hnp.le.trans (Nat.pow_le_pow_right (by norm_num) (by rcases hf with rfl | rfl <;> decide))
  have hc : ((n - 1 : Nat) : ℚ) = n - 1 := by
    rw [Nat.cast_sub (by omega)]; simp
  have hm1 : (1 : ℚ) ≤ n - 1 := by
    have : (2 : ℚ) ≤ n := by exact_mod_cast hn2
    linarith
  have hN : Stands f (sizeLessOne f n) (n - 1) := by
    rw [sizeLessOne_eq f (by omega) hn64, ← hc]
    exact nat_stands hf (by omega)
  have h2 : Stands f (f.ofRat 2) 2 := by
    have := nat_stands hf (n := 2) (by rcases hf with rfl | rfl <;> decide)
    exact_mod_cast this
  have hd0 := abs_nonneg d
  have habs : |((n : ℚ) - 1) * d| = (n - 1) * |d| := by rw [abs_mul, abs_of_nonneg (by linarith)]
  have hge : |d| ≤ (n - 1) * |d| := le_mul_of_one_le_left hd0 hm1
  have hle : ((n : ℚ) - 1) * |d| ≤ n * |d| := mul_le_mul_of_nonneg_right (by linarith) hd0
  have hM0 : 0 ≤ f.maxVal := by have := (stat_consts hf).2.2.2.2; linarith
  have hNN : (0 : ℚ) ≤ 2 ^ f.prec * 2 ^ f.emin := by positivity
  have m1 := mul_stands hf hN hst (by rw [habs]; linarith)
  have r1 : Rel (1 / 2 ^ f.prec) (0 + 1 + 1 / 1000) (f.srnd ((n - 1) * d)) ((n - 1) * d) :=
    (Rel.refl _ _).round hf le_rfl (by norm_num) (by rw [habs]; linarith)
  have b1 := (r1.abs_le hu hu1 (by norm_num) (by norm_num)).1
  rw [habs] at b1
  have r2 : Rel (1 / 2 ^ f.prec) (0 + 1 + 1 / 1000) (f.srnd ((n - 1) * d) / 2) ((n - 1) * d / 2) := by
    unfold Rel at r1 ⊢
    rw [← sub_div, abs_div, abs_div, abs_of_pos (show (0 : ℚ) < 2 by norm_num)]
    linarith
  have m2 := div_stands hf m1 h2 (by norm_num) (by rw [abs_div, abs_of_pos (show (0 : ℚ) < 2 by norm_num)]; linarith)
  refine ⟨_, m2, ?_⟩
  refine (r2.round hf (by norm_num) (by norm_num) ?_).mono hu (by norm_num)
  rw [abs_div, abs_of_pos (show (0 : ℚ) < 2 by norm_num), habs]
  linarith

/-- Neither too small to be as precise as others nor too large. -/
def StepFits (f : Fmt) (x : ℚ) : Prop := (2 : ℚ) ^ f.prec * 2 ^ f.emin ≤ |x| ∧ 2 * |x| ≤ f.maxVal

theorem stepDen_of (hf : f = .double ∨ f = .single) {hs : Flt} {h H : ℚ} (hst : Stands f st d) (sh : Stands f hs h) (rh : Rel (1 / 2 ^ f.prec) (201 / 100) h H)
    (hsame : 0 ≤ H * d) (hd : d ≠ 0) (f1 : StepFits f (H + d)) (f2 : StepFits f (2 * H)) (f3 : StepFits f (2 * H + d)) (f4 : StepFits f (H * (H + d)))
    (f5 : StepFits f (H * (H + d) * (2 * H + d))) (f6 : StepFits f (3 * d)) (f7 : StepFits f (H * (H + d) * (2 * H + d) / (3 * d))) :
    ∃ δ, Stands f (stepDen f st hs) δ ∧ Rel (1 / 2 ^ f.prec) 14 δ (H * (H + d) * (2 * H + d) / (3 * d)) := by
  obtain ⟨hu, hu1⟩ := rel_const hf
  have h2 : Stands f (f.ofRat 2) 2 := by
    have := nat_stands hf (n := 2) (by rcases hf with rfl | rfl <;> decide)
    exact_mod_cast this
  have h3 : Stands f (f.ofRat 3) 3 := by
    have := nat_stands hf (n := 3) (by rcases hf with rfl | rfl <;> decide)
    exact_mod_cast this
  have rs : Rel (1 / 2 ^ f.prec) (201 / 100) d d := (Rel.refl _ _).mono hu (by norm_num)
  have s1 := rh.add rs hsame
  have o1 := add_stands hf sh hst ((s1.abs_le hu hu1 (by norm_num) (by norm_num)).1.trans f1.2)
  have s1' := (s1.round hf (by norm_num) (by norm_num) f1.1).mono hu (show _ ≤ (302 / 100 : ℚ) by norm_num)
  have s2 := (Rel.refl (1 / 2 ^ f.prec) 2).mul rh hu hu1 le_rfl (by norm_num) (by norm_num) (by norm_num)
  have o2 := mul_stands hf h2 sh ((s2.abs_le hu hu1 (by norm_num) (by norm_num)).1.trans f2.2)
  have s2' := (s2.round hf (by norm_num) (by norm_num) f2.1).mono hu (show _ ≤ (302 / 100 : ℚ) by norm_num)
  have rs' : Rel (1 / 2 ^ f.prec) (302 / 100) d d := (Rel.refl _ _).mono hu (by norm_num)
  have s3 := s2'.add rs' (by linarith)
  have o3 := add_stands hf o2 hst ((s3.abs_le hu hu1 (by norm_num) (by norm_num)).1.trans f3.2)
  have s3' := (s3.round hf (by norm_num) (by norm_num) f3.1).mono hu (show _ ≤ (403 / 100 : ℚ) by norm_num)
  have s4 := rh.mul s1' hu hu1 (by norm_num) (by norm_num) (by norm_num) (by norm_num)
  have o4 := mul_stands hf sh o1 ((s4.abs_le hu hu1 (by norm_num) (by norm_num)).1.trans f4.2)
  have s4' := (s4.round hf (by norm_num) (by norm_num) f4.1).mono hu (show _ ≤ (605 / 100 : ℚ) by norm_num)
  have s5 := s4'.mul s3' hu hu1 (by norm_num) (by norm_num) (by norm_num) (by norm_num)
  have o5 := mul_stands hf o4 o3 ((s5.abs_le hu hu1 (by norm_num) (by norm_num)).1.trans f5.2)
  have s5' := (s5.round hf (by norm_num) (by norm_num) f5.1).mono hu (show _ ≤ (112 / 10 : ℚ) by norm_num)
  have s6 := (Rel.refl (1 / 2 ^ f.prec) (3 * d)).round hf le_rfl (by norm_num) f6.1
  have o6 := mul_stands hf h3 hst (by have := f6.2; have := abs_nonneg (3 * d); linarith)
  obtain ⟨z6, s6'⟩ := s6.inv hu hu1 (by norm_num) (by norm_num) (mul_ne_zero (by norm_num) hd)
  have s7 := s5'.mul s6' hu hu1 (by norm_num) (by norm_num) (by norm_num) (by norm_num)
  rw [← div_eq_mul_inv, ← div_eq_mul_inv] at s7
  have o7 := div_stands hf o5 o6 z6 ((s7.abs_le hu hu1 (by norm_num) (by norm_num)).1.trans f7.2)
  exact ⟨_, o7, (s7.round hf (by norm_num) (by norm_num) f7.1).mono hu (by norm_num)⟩

theorem cube_fits (hf : f = .double ∨ f = .single) (hnp : n < 2 ^ f.prec) : 4 * (n : ℚ) ^ 3 ≤ f.maxVal := by
  have h1 : (n : ℚ) ≤ 2 ^ f.prec := by exact_mod_cast hnp.le
  have h2 : (n : ℚ) ^ 3 ≤ (2 ^ f.prec) ^ 3 := pow_le_pow_left₀ (by positivity) h1 3
  have h3 : 4 * ((2 : ℚ) ^ f.prec) ^ 3 ≤ f.maxVal := by
    rcases hf with rfl | rfl
    · have : (2 : ℚ) ^ 1000 ≤ Fmt.double.maxVal := by decide +kernel
      refine le_trans ?_ this
      show 4 * ((2 : ℚ) ^ 53) ^ 3 ≤ 2 ^ 1000
      rw [← pow_mul, show (4 : ℚ) = 2 ^ 2 by norm_num, ← pow_add]
      exact pow_le_pow_right₀ (by norm_num) (by norm_num)
    · have : (2 : ℚ) ^ 100 ≤ Fmt.single.maxVal := by decide +kernel
      refine le_trans ?_ this
      show 4 * ((2 : ℚ) ^ 24) ^ 3 ≤ 2 ^ 100
      norm_num
  linarith

/-- The sizes of what is computed on the way to the sum of squares. -/
theorem step_fits {N M a n : ℚ} (hN : 0 < N) (hn : 2 ≤ n) (ha : 0 ≤ a) (l1 : 2 * N ≤ a) (l2 : 2 * N ≤ a ^ 2) (l3 : 2 * N ≤ a ^ 3) (g1 : 4 * (n * a) ≤ M)
    (g2 : 4 * (n * a) ^ 2 ≤ M) (g3 : 4 * (n * a) ^ 3 ≤ M) (g4 : 4 * n ^ 3 ≤ M) :
    (N ≤ (n + 1) / 2 * a ∧ 2 * ((n + 1) / 2 * a) ≤ M) ∧ (N ≤ (n - 1) * a ∧ 2 * ((n - 1) * a) ≤ M) ∧ (N ≤ n * a ∧ 2 * (n * a) ≤ M) ∧
    (N ≤ (n - 1) * (n + 1) / 4 * a ^ 2 ∧ 2 * ((n - 1) * (n + 1) / 4 * a ^ 2) ≤ M) ∧
    (N ≤ (n - 1) * (n + 1) / 4 * n * a ^ 3 ∧ 2 * ((n - 1) * (n + 1) / 4 * n * a ^ 3) ≤ M) ∧ (N ≤ 3 * a ∧ 2 * (3 * a) ≤ M + 2 * (n * a)) ∧
    (N ≤ (n - 1) * (n + 1) / 4 * n * a ^ 2 / 3 ∧ 2 * ((n - 1) * (n + 1) / 4 * n * a ^ 2 / 3) ≤ M) := by
  have c2 : (n - 1) * (n + 1) / 4 ≤ n ^ 2 / 4 := by nlinarith
  have c2' : 3 / 4 ≤ (n - 1) * (n + 1) / 4 := by nlinarith
  have c3 : (n - 1) * (n + 1) / 4 * n ≤ n ^ 3 / 4 := by
    have := mul_le_mul_of_nonneg_right c2 (show 0 ≤ n by linarith)
    linarith
  have c3' : 3 / 2 ≤ (n - 1) * (n + 1) / 4 * n := by
    have := mul_le_mul c2' hn (by norm_num) (by linarith)
    linarith
  have d2 : 0 ≤ a ^ 2 := by positivity
  have d3 : 0 ≤ a ^ 3 := by positivity
  have q1 := mul_le_mul_of_nonneg_right hn ha
  have q2 := mul_le_mul_of_nonneg_right c2 d2
  have q2' := mul_le_mul_of_nonneg_right c2' d2
  have q3 := mul_le_mul_of_nonneg_right c3 d3
  have q3' := mul_le_mul_of_nonneg_right c3' d3
  have q4 := mul_le_mul_of_nonneg_right c3 d2
  have q4' := mul_le_mul_of_nonneg_right c3' d2
  have hM : 0 ≤ M := by
    have : 0 ≤ n ^ 3 := by positivity
    linarith
  have q5 : n ^ 3 * a ^ 2 ≤ M / 4 := by
    have hn3 : 0 ≤ n ^ 3 := by positivity
    rcases le_total a 1 with h | h
    · have := mul_le_mul_of_nonneg_left (pow_le_one₀ (n := 2) ha h) hn3
      linarith
    · have h2 : a ^ 2 ≤ a ^ 3 := pow_le_pow_right₀ h (by norm_num)
      have := mul_le_mul_of_nonneg_left h2 hn3
      rw [mul_pow] at g3
      linarith
  have hna : 0 ≤ n * a := by positivity
  rw [mul_pow] at g2 g3
  refine ⟨⟨by linarith, by linarith⟩, ⟨by linarith, by linarith⟩, ⟨by linarith, by linarith⟩, ⟨by linarith, by linarith⟩, ⟨by linarith, by linarith⟩,
    ⟨by linarith, by linarith⟩, by linarith, by linarith⟩

theorem stepDen_near (hf : f = .double ∨ f = .single) (hst : Stands f st d) (hn2 : 2 ≤ n) (hnp : n < 2 ^ f.prec)
    (hlo : 2 * ((2 : ℚ) ^ f.prec * 2 ^ f.emin) ≤ |d| ^ 3) (hhi : 4 * (n * |d|) ^ 3 ≤ f.maxVal) :
    ∃ δ, Stands f (stepDen f st (halfRange f st n)) δ ∧ Rel (1 / 2 ^ f.prec) 14 δ (d ^ 2 * (n * (n - 1) * (n + 1) / 12)) := by
  obtain ⟨hu0, hη0, hη1, hη2, hM⟩ := stat_consts hf
  have hd0 := abs_nonneg d
  have hn2' : (2 : ℚ) ≤ n := by exact_mod_cast hn2
  obtain ⟨l1, l2⟩ := pow_small (normal_small f hf) hlo
  obtain ⟨g1, g2⟩ := pow_large hM (by positivity) hhi
  have hNN : (0 : ℚ) < 2 ^ f.prec * 2 ^ f.emin := by positivity
  have hdp : 0 < |d| := by linarith
  have hd : d ≠ 0 := abs_pos.1 hdp
  obtain ⟨h, sh, rh⟩ := halfRange_near hf hst hn2 hnp l1 g1
  obtain ⟨k1, k2, k3, k4, k5, k6, k7⟩ := step_fits hNN hn2' hd0 l1 l2 hlo g1 g2 hhi (cube_fits hf hnp)
  have a1 : |((n : ℚ) - 1) * d / 2| = (n - 1) / 2 * |d| := by
    rw [show ((n : ℚ) - 1) * d / 2 = (n - 1) / 2 * d by ring, abs_mul, abs_of_nonneg (by linarith)]
  have a2 : |((n : ℚ) - 1) * d / 2 + d| = (n + 1) / 2 * |d| := by
    rw [show ((n : ℚ) - 1) * d / 2 + d = (n + 1) / 2 * d by ring, abs_mul, abs_of_nonneg (by linarith)]
  have a3 : |(2 : ℚ) * ((n - 1) * d / 2)| = (n - 1) * |d| := by
    rw [show (2 : ℚ) * ((n - 1) * d / 2) = (n - 1) * d by ring, abs_mul, abs_of_nonneg (by linarith)]
  have a4 : |(2 : ℚ) * ((n - 1) * d / 2) + d| = n * |d| := by
    rw [show (2 : ℚ) * ((n - 1) * d / 2) + d = n * d by ring, abs_mul, abs_of_nonneg (by linarith)]
  have a5 : |((n : ℚ) - 1) * d / 2 * ((n - 1) * d / 2 + d)| = (n - 1) * (n + 1) / 4 * |d| ^ 2 := by rw [abs_mul, a1, a2]; ring
  have a6 : |((n : ℚ) - 1) * d / 2 * ((n - 1) * d / 2 + d) * (2 * ((n - 1) * d / 2) + d)| = (n - 1) * (n + 1) / 4 * n * |d| ^ 3 := by
    rw [abs_mul, a5, a4]; ring
  have a7 : |(3 : ℚ) * d| = 3 * |d| := by rw [abs_mul, abs_of_pos (show (0 : ℚ) < 3 by norm_num)]
  have e : ((n : ℚ) - 1) * d / 2 * ((n - 1) * d / 2 + d) * (2 * ((n - 1) * d / 2) + d) / (3 * d) = d ^ 2 * (n * (n - 1) * (n + 1) / 12) := by
    field_simp
    ring
  have a8 : |((n : ℚ) - 1) * d / 2 * ((n - 1) * d / 2 + d) * (2 * ((n - 1) * d / 2) + d) / (3 * d)| = (n - 1) * (n + 1) / 4 * n * |d| ^ 2 / 3 := by
    rw [abs_div, a6, a7]
    field_simp
  have hsame : (0 : ℚ) ≤ (n - 1) * d / 2 * d := by
    have : (0 : ℚ) ≤ (n - 1) / 2 * (d * d) := mul_nonneg (by linarith) (mul_self_nonneg d)
    linarith
  rw [← e]
  refine stepDen_of hf hst sh rh hsame hd ?_ ?_ ?_ ?_ ?_ ?_ ?_ <;> unfold StepFits
  · rw [a2]; exact k1
  · rw [a3]; exact k2
  · rw [a4]; exact k3
  · rw [a5]; exact k4
  · rw [a6]; exact k5
  · rw [a7]
    have := mul_le_mul_of_nonneg_right hn2' hd0
    exact ⟨k6.1, by linarith⟩
  · rw [a8]; exact k7

end Den


end Near

end Flut
