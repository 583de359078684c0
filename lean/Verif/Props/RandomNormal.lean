import Verif.Props.RandomUniform
import Mathlib.Analysis.SpecialFunctions.Log.Basic
import Mathlib.Analysis.Complex.ExponentialBounds

/-! # Property theorems: normally distributed random numbers (C116) -/

namespace Flut

open Spec FloatMath Random

/-! ## The loop ends -/

/-- The point of a round. -/
def pointOf (f : Fmt) (x : Nat) : Flt × Flt :=
  (f.sub (f.mul (.fin false 2) (canonical f x).1) (.fin false 1),
    f.sub (f.mul (.fin false 2) (canonical f (canonical f x).2).1) (.fin false 1))

/-- The squared distance of a point to the centre. -/
def squareOf (f : Fmt) (p : Flt × Flt) : Flt := f.add (f.mul p.1 p.1) (f.mul p.2 p.2)

/-- Whether a round ends the loop. -/
def inDisk (f : Fmt) (x : Nat) : Bool :=
  !((Flt.fin false 1).lt (squareOf f (pointOf f x)) || (squareOf f (pointOf f x)).eq (.fin false 0))

theorem polar_succ {f : Fmt} (hf : f = .double ∨ f = .single) (n : Nat) {x : Nat} (hx : 1 ≤ x ∧ x < 2147483647) :
    polar f (n + 1) x = if inDisk f x then .ok ((pointOf f x).2, squareOf f (pointOf f x), next^[2 * drawsOf f] x)
      else polar f n (next^[2 * drawsOf f] x) := by
  have e : (canonical f (canonical f x).2).2 = next^[2 * drawsOf f] x := by
    obtain ⟨_, _, _, _, e1⟩ := canonical_range hf hx
    obtain ⟨_, _, _, _, e2⟩ := canonical_range hf (iter_range hx (drawsOf f))
    rw [e1, e2, ← Function.iterate_add_apply, two_mul]
  have e0 : polar f (n + 1) x =
      if ((Flt.fin false 1).lt (squareOf f (pointOf f x)) || (squareOf f (pointOf f x)).eq (.fin false 0)) = true then
        polar f n (canonical f (canonical f x).2).2
      else .ok ((pointOf f x).2, squareOf f (pointOf f x), (canonical f (canonical f x).2).2) := rfl
  rw [e0, e]
  unfold inDisk
  by_cases h : ((Flt.fin false 1).lt (squareOf f (pointOf f x)) || (squareOf f (pointOf f x)).eq (.fin false 0)) = true
  · rw [if_pos h, h]; rfl
  · rw [if_neg h, Bool.eq_false_iff.2 h]; rfl

theorem polar_reach {f : Fmt} (hf : f = .double ∨ f = .single) : ∀ (k : Nat) {x : Nat}, (1 ≤ x ∧ x < 2147483647) →
    inDisk f (next^[2 * drawsOf f * k] x) = true → ∃ j ≤ k, (inDisk f (next^[2 * drawsOf f * j] x) = true ∧
      ∀ i < j, inDisk f (next^[2 * drawsOf f * i] x) = false) ∧ ∀ n > k,
      polar f n x = .ok ((pointOf f (next^[2 * drawsOf f * j] x)).2, squareOf f (pointOf f (next^[2 * drawsOf f * j] x)),
        next^[2 * drawsOf f * (j + 1)] x)
  | k, x, hx, h => by
    by_cases h0 : inDisk f x = true
    · refine ⟨0, Nat.zero_le _, ⟨h0, fun i hi => absurd hi (Nat.not_lt_zero i)⟩, fun n hn => ?_⟩
      obtain ⟨n, rfl⟩ : ∃ m, n = m + 1 := ⟨n - 1, by omega⟩
      rw [polar_succ hf n hx, if_pos h0]
      simp
    · cases k with
      | zero => exact absurd h h0
      | succ k =>
        have e : ∀ i, next^[2 * drawsOf f * (i + 1)] x = next^[2 * drawsOf f * i] (next^[2 * drawsOf f] x) := fun i => by
          rw [← Function.iterate_add_apply]; rfl
        rw [e] at h
        obtain ⟨j, hj, ⟨hd, hb⟩, hall⟩ := polar_reach hf k (iter_range hx _) h
        refine ⟨j + 1, by omega, ⟨by rw [e]; exact hd, fun i hi => ?_⟩, fun n hn => ?_⟩
        · cases i with
          | zero => exact Bool.eq_false_iff.2 h0
          | succ i => rw [e]; exact hb i (by omega)
        obtain ⟨n, rfl⟩ : ∃ m, n = m + 1 := ⟨n - 1, by omega⟩
        rw [polar_succ hf n hx, if_neg h0, hall n (by omega), e, e]

theorem good_states {f : Fmt} (hf : f = .double ∨ f = .single) : inDisk f 19 = true ∧ inDisk f (next 19) = true := by
  rcases hf with rfl | rfl <;> decide +kernel

/-- From every state a round that ends the loop is reached: the sequence of the engine passes through all states, and there is a state
that ends the loop among those of each parity. -/
theorem disk_reached {f : Fmt} (hf : f = .double ∨ f = .single) {x : Nat} (hx : 1 ≤ x ∧ x < 2147483647) :
    ∃ k < 2 ^ 31, inDisk f (next^[2 * drawsOf f * k] x) = true := by
  obtain ⟨g1, g2⟩ := good_states hf
  have hper : ∀ i, next^[i + 2147483646] x = next^[i] x := fun i => (iter_eq_iff hx _ _).2 (by simp [Nat.ModEq])
  -- an even number of draws
  obtain ⟨i, hi, h⟩ : ∃ i ≤ 1073741823, inDisk f (next^[2 * i] x) = true := by
    obtain ⟨n, hn, e⟩ := iter_surj hx (t := 19) (by norm_num)
    rcases Nat.even_or_odd' n with ⟨i, rfl | rfl⟩
    · exact ⟨i, by omega, by rw [e]; exact g1⟩
    · refine ⟨i + 1, by omega, ?_⟩
      have : 2 * (i + 1) = (2 * i + 1) + 1 := by ring
      rw [this, Function.iterate_succ_apply', e]
      exact g2
  rcases hf with rfl | rfl
  · have hd : drawsOf .double = 2 := rfl
    rw [hd]
    rcases Nat.even_or_odd' i with ⟨j, rfl | rfl⟩
    · exact ⟨j, by omega, by rw [show 2 * 2 * j = 2 * (2 * j) by ring]; exact h⟩
    · refine ⟨j + 536870912, by omega, ?_⟩
      rw [show 2 * 2 * (j + 536870912) = 2 * (2 * j + 1) + 2147483646 by ring, hper]
      exact h
  · have hd : drawsOf .single = 1 := by decide
    rw [hd]
    exact ⟨i, by omega, h⟩

theorem norm_eq (log : Flt → Flt) {f : Fmt} (hf : f = .double ∨ f = .single) (mean stdev : Flt) {x : Nat} (hx : 1 ≤ x ∧ x < 2147483647) :
    ∃ j < 2 ^ 31, (inDisk f (next^[2 * drawsOf f * j] x) = true ∧ ∀ i < j, inDisk f (next^[2 * drawsOf f * i] x) = false) ∧
      ∀ n ≥ 2 ^ 31, norm log f n mean stdev x =
      .ok (f.add (f.mul (f.mul (pointOf f (next^[2 * drawsOf f * j] x)).2
        (f.sqrt (f.div (f.mul (.fin true 2) (log (squareOf f (pointOf f (next^[2 * drawsOf f * j] x)))))
          (squareOf f (pointOf f (next^[2 * drawsOf f * j] x)))))) stdev) mean, next^[2 * drawsOf f * (j + 1)] x) := by
  obtain ⟨k, hk, h⟩ := disk_reached hf hx
  obtain ⟨j, hj, hd, hall⟩ := polar_reach hf k hx h
  refine ⟨j, by omega, hd, fun n hn => ?_⟩
  unfold Random.norm
  rw [hall n (by omega)]
  rfl

/-- Drawing a normally distributed number always ends, in every state of the generator, whatever `log` does: there is no endless search for a
point in the disk. The engine is called an even number of times (a multiple of four for `double`). -/
theorem C116_ends (log : Flt → Flt) (f : Fmt) (hf : f = .double ∨ f = .single) (mean stdev : Flt) (s i : Nat) :
    ∃ v k, k ≤ 2 ^ 31 ∧ ∀ n ≥ 2 ^ 31,
      norm log f n mean stdev (next^[i] (seed s)) = .ok (v, next^[i + (if f = .double then 4 else 2) * k] (seed s)) := by
  obtain ⟨j, hj, -, h⟩ := norm_eq log hf mean stdev (iter_range (seed_range s) i)
  have e : next^[2 * drawsOf f * (j + 1)] (next^[i] (seed s)) = next^[i + (if f = .double then 4 else 2) * (j + 1)] (seed s) := by
    rw [← Function.iterate_add_apply, Nat.add_comm i]
    rcases hf with rfl | rfl <;> rfl
  rw [e] at h
  exact ⟨_, j + 1, by omega, h⟩

/-! ## The numbers -/

theorem binary_gt_one {p : Nat} {e : Int} {x : ℚ} (h : IsBinary p e x) (h1 : 1 < x) : 1 + 1 / 2 ^ p ≤ x := by
  obtain ⟨n, k, hn, hk, rfl⟩ := h
  have h2 : (0 : ℚ) < 2 ^ p := by positivity
  rcases le_or_gt (-(p : Int)) k with hc | hc
  · have e1 : (2 : ℚ) ^ k = 2 ^ (k + p).toNat / 2 ^ p := by
      rw [eq_div_iff h2.ne', ← zpow_natCast, ← zpow_natCast, ← zpow_add₀ (by norm_num)]
      congr 1
      omega
    rw [e1, ← mul_div_assoc, lt_div_iff₀ h2, one_mul] at h1
    have h3 : 2 ^ p < n * 2 ^ (k + p).toNat := by exact_mod_cast h1
    have h4 : 2 ^ p + 1 ≤ n * 2 ^ (k + p).toNat := by omega
    have h5 : ((2 ^ p + 1 : Int) : ℚ) ≤ ((n * 2 ^ (k + p).toNat : Int) : ℚ) := by exact_mod_cast h4
    push_cast at h5
    rw [e1, ← mul_div_assoc, le_div_iff₀ h2, add_mul, one_mul, one_div, inv_mul_cancel₀ h2.ne']
    exact h5
  · exfalso
    have e1 : (2 : ℚ) ^ k ≤ 2 ^ (-(p : Int)) := zpow_le_zpow_right₀ (by norm_num) (by omega)
    have hn' : |(n : ℚ)| ≤ 2 ^ p := by exact_mod_cast hn.le
    have h3 : (n : ℚ) * 2 ^ k ≤ 2 ^ p * 2 ^ (-(p : Int)) := mul_le_mul ((le_abs_self _).trans hn') e1 (by positivity) (by positivity)
    rw [zpow_neg, zpow_natCast, mul_inv_cancel₀ h2.ne'] at h3
    linarith

theorem small_binary {f : Fmt} (hf : f = .double ∨ f = .single) {k : Nat} (hk : k ≤ 2 * f.prec) : IsBinary f.prec f.emin (1 / 2 ^ k) := by
  refine ⟨1, -(k : Int), ?_, ?_, ?_⟩
  · rw [abs_one]
    exact one_lt_pow₀ (by norm_num) (by have := prec_pos hf; omega)
  · rcases hf with rfl | rfl <;> simp only [Fmt.double, Fmt.single] at * <;> omega
  · rw [zpow_neg, zpow_natCast]; simp

/-- A coordinate of a point: between minus one and one, and zero or not too small. -/
theorem coordinate {f : Fmt} (hf : f = .double ∨ f = .single) {w : Flt} {u : ℚ} (h : Stands f w u) (h0 : 0 ≤ u) (h1 : u ≤ 1) :
    ∃ b, Stands f (f.sub (f.mul (.fin false 2) w) (.fin false 1)) b ∧ |b| ≤ 1 ∧ (b = 0 ∨ 1 / 2 ^ f.prec ≤ |b|) := by
  have hp := prec_pos hf
  have two : Stands f (.fin false 2) 2 := by
    obtain ⟨-, -, -, hM⟩ := fmt_consts hf
    refine ⟨⟨by norm_num, by linarith [(by norm_num : (2 : ℚ) ≤ 2 ^ 100)], ?_⟩, rfl⟩
    simpa using pow_binary hf 1
  have w0 : 0 ≤ 2 * u := by linarith
  have w1 : 2 * u ≤ 2 ^ 1 := by linarith
  have m := mul_stands hf two h (max100 hf w0 w1 (by norm_num))
  obtain ⟨m0, m1⟩ := srnd_bound hf w0 w1
  have hb := m.binary
  generalize f.srnd (2 * u) = W at *
  norm_num at m1
  have hd : |W - 1| ≤ 1 := by rw [abs_le]; constructor <;> linarith
  have c := sub_stands hf m (one_stands hf) (hd.trans (by simpa using max100 hf (q := 1) (j := 0) (by norm_num) (by norm_num) (by norm_num)))
  refine ⟨_, c, ?_, ?_⟩
  · have := srnd_abs_pow hf (q := W - 1) (j := 0) (by simpa using hd)
    simpa using this
  · have sb := small_binary hf (k := f.prec) (by omega)
    have hv : (0 : ℚ) < 1 / 2 ^ f.prec := by positivity
    rcases lt_trichotomy W 1 with hc | rfl | hc
    · right
      have h3 := binary_lt_one hp hb hc
      have := Fmt.srnd_le hp (Fmt.isBinary_neg sb) (show W - 1 ≤ -(1 / 2 ^ f.prec) by linarith)
      rw [le_abs]
      right
      linarith
    · left; rw [sub_self, Fmt.srnd_zero]
    · right
      have h3 := binary_gt_one hb hc
      have := Fmt.le_srnd hp sb (show 1 / 2 ^ f.prec ≤ W - 1 by linarith)
      rw [le_abs]
      left
      exact this

theorem disk_point {f : Fmt} (hf : f = .double ∨ f = .single) {x : Nat} (hx : 1 ≤ x ∧ x < 2147483647) (h : inDisk f x = true) :
    ∃ b r, Stands f (pointOf f x).2 b ∧ Stands f (squareOf f (pointOf f x)) r ∧ |b| ≤ 1 ∧ r ≤ 1 ∧ 1 / 2 ^ (2 * f.prec) ≤ r ∧
      b ^ 2 * (1 - 1 / 2 ^ f.prec) ≤ r := by
  have hp := prec_pos hf
  obtain ⟨u, hu, u0, u1, e1⟩ := canonical_range hf hx
  obtain ⟨w, hw, w0, w1, e2⟩ := canonical_range hf (iter_range hx (drawsOf f))
  rw [← e1] at hw
  have hv : (0 : ℚ) < 1 / 2 ^ f.prec := by positivity
  obtain ⟨a, ha, a1, a2⟩ := coordinate hf hu u0 (by linarith)
  obtain ⟨b, hb, b1, b2⟩ := coordinate hf hw w0 (by linarith)
  have sq : ∀ {y : Flt} {c : ℚ}, Stands f y c → |c| ≤ 1 → (c = 0 ∨ 1 / 2 ^ f.prec ≤ |c|) →
      ∃ d, Stands f (f.mul y y) d ∧ 0 ≤ d ∧ d ≤ 1 ∧ (c = 0 ∧ d = 0 ∨ 1 / 2 ^ (2 * f.prec) ≤ d) ∧ c ^ 2 * (1 - 1 / 2 ^ f.prec) ≤ d := by
    intro y c hc h1 h2
    have q0 : 0 ≤ c * c := mul_self_nonneg c
    have q1 : c * c ≤ 2 ^ 0 := by
      rw [← abs_mul_self, abs_mul, pow_zero]
      exact mul_le_one₀ h1 (abs_nonneg c) h1
    have m := mul_stands hf hc hc (max100 hf q0 q1 (by norm_num))
    obtain ⟨m0, m1⟩ := srnd_bound hf q0 q1
    refine ⟨_, m, m0, by simpa using m1, ?_, ?_⟩
    · rcases h2 with rfl | h2
      · left; simp [Fmt.srnd_zero]
      · right
        apply Fmt.le_srnd hp (small_binary hf le_rfl)
        rw [← abs_mul_self, abs_mul, two_mul, pow_add, ← one_div_mul_one_div]
        exact mul_le_mul h2 h2 hv.le (abs_nonneg c)
    · rcases h2 with rfl | h2
      · simp [Fmt.srnd_zero]
      · have hn : (2 : ℚ) ^ f.prec * 2 ^ f.emin ≤ 2 * |c * c| := by
          have h3 : (2 : ℚ) ^ f.prec * 2 ^ f.emin ≤ 1 / 2 ^ (2 * f.prec) := by rcases hf with rfl | rfl <;> decide +kernel
          have h4 : 1 / 2 ^ (2 * f.prec) ≤ |c * c| := by
            rw [abs_mul, two_mul, pow_add, ← one_div_mul_one_div]
            exact mul_le_mul h2 h2 hv.le (abs_nonneg c)
          have := abs_nonneg (c * c)
          linarith
        have hr := srnd_rel_normal hn
        rw [abs_of_nonneg q0, div_eq_mul_one_div] at hr
        have := (abs_le.1 hr).1
        rw [pow_two]
        linarith
  obtain ⟨A, hA, A0, A1, A2, -⟩ := sq ha a1 a2
  obtain ⟨B, hB, B0, B1, B2, B3⟩ := sq hb b1 b2
  have s0 : 0 ≤ A + B := add_nonneg A0 B0
  have s1 : A + B ≤ 2 ^ 1 := by linarith
  have s := add_stands hf hA hB (max100 hf s0 s1 (by norm_num))
  replace s : Stands f (squareOf f (pointOf f x)) (f.srnd (A + B)) := s
  unfold inDisk at h
  rw [Bool.not_eq_true', Bool.or_eq_false_iff] at h
  obtain ⟨l1, l2⟩ := h
  refine ⟨b, f.srnd (A + B), hb, s, b1, ?_, ?_, B3.trans (Fmt.le_srnd hp hB.binary (by linarith))⟩
  · by_contra hc
    have := (lt_stands (one_stands hf) s).2 (not_le.1 hc)
    rw [this] at l1
    exact Bool.noConfusion l1
  · apply Fmt.le_srnd hp (small_binary hf le_rfl)
    rcases A2 with ⟨-, hA2⟩ | hA2
    · rcases B2 with ⟨-, hB2⟩ | hB2
      · exfalso
        rw [hA2, hB2, add_zero, Fmt.srnd_zero] at s
        obtain ⟨s', m', e, e2⟩ := s.fin
        rw [e] at l2
        have : (Flt.fin s' m').eq (.fin false 0) = true := by
          have e3 : (if s' = true then -m' else m') = 0 := e2
          simp [Flt.eq, e3]
        rw [this] at l2
        exact Bool.noConfusion l2
      · linarith
    · linarith

theorem square_stands {f : Fmt} (hf : f = .double ∨ f = .single) {x : Nat} (hx : 1 ≤ x ∧ x < 2147483647) :
    ∃ r, Stands f (squareOf f (pointOf f x)) r := by
  obtain ⟨u, hu, u0, u1, e1⟩ := canonical_range hf hx
  obtain ⟨w, hw, w0, w1, -⟩ := canonical_range hf (iter_range hx (drawsOf f))
  rw [← e1] at hw
  have hv : (0 : ℚ) < 1 / 2 ^ f.prec := by positivity
  obtain ⟨a, ha, a1, -⟩ := coordinate hf hu u0 (by linarith)
  obtain ⟨b, hb, b1, -⟩ := coordinate hf hw w0 (by linarith)
  have sq : ∀ {y : Flt} {c : ℚ}, Stands f y c → |c| ≤ 1 → ∃ d, Stands f (f.mul y y) d ∧ 0 ≤ d ∧ d ≤ 1 := by
    intro y c hc h1
    have q0 : 0 ≤ c * c := mul_self_nonneg c
    have q1 : c * c ≤ 2 ^ 0 := by
      rw [← abs_mul_self, abs_mul, pow_zero]
      exact mul_le_one₀ h1 (abs_nonneg c) h1
    obtain ⟨m0, m1⟩ := srnd_bound hf q0 q1
    exact ⟨_, mul_stands hf hc hc (max100 hf q0 q1 (by norm_num)), m0, by simpa using m1⟩
  obtain ⟨A, hA, A0, A1⟩ := sq ha a1
  obtain ⟨B, hB, B0, B1⟩ := sq hb b1
  exact ⟨_, add_stands hf hA hB (max100 hf (add_nonneg A0 B0) (show A + B ≤ 2 ^ 1 by linarith) (by norm_num))⟩

/-- The number belongs to the first point of the sequence that is in the disk without its centre: the points have as coordinates twice a
number between zero and one less one. With its second coordinate `y` and its squared distance `r` to the centre, the number is
`y * sqrt(-2 * log(r) / r) * stdev + mean`. -/
theorem C116_value (log : Flt → Flt) (f : Fmt) (hf : f = .double ∨ f = .single) (mean stdev : Flt) (s i : Nat) :
    ∃ (k : Nat) (p : Flt × Flt), p = pointOf f (next^[i + (if f = .double then 4 else 2) * k] (seed s)) ∧
      (squareOf f p).le (.fin false 1) = true ∧ (squareOf f p).eq (.fin false 0) = false ∧
      (∀ j < k, (squareOf f (pointOf f (next^[i + (if f = .double then 4 else 2) * j] (seed s)))).le (.fin false 1) = false ∨
        (squareOf f (pointOf f (next^[i + (if f = .double then 4 else 2) * j] (seed s)))).eq (.fin false 0) = true) ∧
      ∀ n ≥ 2 ^ 31, ∃ x, norm log f n mean stdev (next^[i] (seed s)) = .ok (f.add (f.mul (f.mul p.2
        (f.sqrt (f.div (f.mul (.fin true 2) (log (squareOf f p))) (squareOf f p)))) stdev) mean, x) := by
  have hx := iter_range (seed_range s) i
  obtain ⟨j, -, ⟨hd, hb⟩, h⟩ := norm_eq log hf mean stdev hx
  have e : ∀ j, next^[2 * drawsOf f * j] (next^[i] (seed s)) = next^[i + (if f = .double then 4 else 2) * j] (seed s) := fun j => by
    rw [← Function.iterate_add_apply, Nat.add_comm i]
    rcases hf with rfl | rfl <;> rfl
  have hle : ∀ y, (1 ≤ y ∧ y < 2147483647) → (Flt.fin false 1).lt (squareOf f (pointOf f y)) = !(squareOf f (pointOf f y)).le (.fin false 1) := by
    intro y hy
    obtain ⟨q, hq⟩ := square_stands hf hy
    rw [Bool.eq_iff_iff, Bool.not_eq_true', lt_stands (one_stands hf) hq, ← Bool.not_eq_true, le_stands hq (one_stands hf), not_le]
  have hdk : ∀ y, (1 ≤ y ∧ y < 2147483647) → inDisk f y =
      ((squareOf f (pointOf f y)).le (.fin false 1) && !(squareOf f (pointOf f y)).eq (.fin false 0)) := by
    intro y hy
    unfold inDisk
    rw [hle y hy, Bool.not_or, Bool.not_not]
  rw [hdk _ (iter_range hx _), Bool.and_eq_true, Bool.not_eq_true', e] at hd
  rw [e j, e (j + 1)] at h
  refine ⟨j, _, rfl, hd.1, hd.2, fun m hm => ?_, fun n hn => ⟨_, h n hn⟩⟩
  have := hb m hm
  rw [hdk _ (iter_range hx _), Bool.and_eq_false_iff, Bool.not_eq_false', e] at this
  exact this

/-- What is required of `log`: for numbers up to one it is right to one per cent. -/
def GoodLog (f : Fmt) (log : Flt → Flt) : Prop := ∀ x q, Stands f x q → 0 < q → q ≤ 1 →
  ∃ l, Stands f (log x) l ∧ |(l : ℝ) - Real.log q| ≤ |Real.log q| / 100

/-- The largest number of standard deviations. -/
def reach (f : Fmt) : ℚ := if f = .double then 49 / 4 else 33 / 4

theorem reach_double : reach .double = 49 / 4 := if_pos rfl

theorem reach_single : reach .single = 33 / 4 := if_neg (by decide)

theorem sample_bound {f : Fmt} (hf : f = .double ∨ f = .single) {log : Flt → Flt} (hlog : GoodLog f log) {y sq : Flt} {b r : ℚ}
    (hy : Stands f y b) (hs : Stands f sq r) (hr1 : r ≤ 1) (hr : 1 / 2 ^ (2 * f.prec) ≤ r) (hbr : b ^ 2 * (1 - 1 / 2 ^ f.prec) ≤ r) :
    ∃ z, Stands f (f.mul y (f.sqrt (f.div (f.mul (.fin true 2) (log sq)) sq))) z ∧ |z| ≤ reach f := by
  have hp := prec_pos hf
  obtain ⟨h24, hn0, hn, hM⟩ := fmt_consts hf
  have hr0 : 0 < r := lt_of_lt_of_le (by positivity) hr
  obtain ⟨l, hl, he⟩ := hlog sq r hs hr0 hr1
  have hu0 : (0 : ℚ) < 1 / 2 ^ f.prec := by positivity
  have hu : 1 / (2 : ℚ) ^ f.prec ≤ 1 / 16777216 := by
    apply one_div_le_one_div_of_le (by norm_num)
    norm_num at h24 ⊢; exact h24
  have hrR : (0 : ℝ) < r := by exact_mod_cast hr0
  have hln0 : Real.log r ≤ 0 := Real.log_nonpos hrR.le (by exact_mod_cast hr1)
  have hln : -(2 * f.prec * (6931471808 / 10000000000)) ≤ Real.log r := by
    have h1 : ((1 / 2 ^ (2 * f.prec) : ℚ) : ℝ) ≤ r := by exact_mod_cast hr
    have h2 := Real.log_le_log (by push_cast; positivity) h1
    push_cast at h2
    rw [one_div, Real.log_inv, Real.log_pow] at h2
    have h3 := Real.log_two_lt_d9
    push_cast at h2
    have : (2 * (f.prec : ℝ)) * Real.log 2 ≤ (2 * f.prec) * (6931471808 / 10000000000) := by
      apply mul_le_mul_of_nonneg_left _ (by positivity)
      norm_num at h3 ⊢
      linarith
    linarith
  rw [abs_of_nonpos hln0] at he
  have he := abs_le.1 he
  have l0R : (l : ℝ) ≤ 0 := by linarith [he.1, he.2]
  have l1R : -((2 * f.prec * (7001 / 10000) : ℚ) : ℝ) ≤ l := by
    push_cast
    have : (0 : ℝ) ≤ f.prec := Nat.cast_nonneg _
    linarith [he.1, he.2]
  have l0 : l ≤ 0 := by exact_mod_cast l0R
  have l1 : -(2 * f.prec * (7001 / 10000)) ≤ l := by exact_mod_cast l1R
  have hpr : (f.prec : ℚ) ≤ 53 := by rcases hf with rfl | rfl <;> norm_num [Fmt.double, Fmt.single]
  -- twice the logarithm
  have neg2 : Stands f (.fin true 2) (-2) := by
    refine ⟨⟨by norm_num, by linarith [(by norm_num : (2 : ℚ) ≤ 2 ^ 100)], by simpa using pow_binary hf 1⟩, ?_⟩
    simp [Flt.pos]
  have a0 : 0 ≤ -2 * l := by linarith
  have a1 : -2 * l ≤ 2 ^ 8 := by linarith
  have m := mul_stands hf neg2 hl (max100 hf a0 a1 (by norm_num))
  have hM2 : f.srnd (-2 * l) = -2 * l ∨ f.srnd (-2 * l) ≤ -2 * l * (1 + 1 / 2 ^ f.prec) := by
    right
    have hmul : ∃ n : Int, -2 * l = n * 2 ^ f.emin := by
      obtain ⟨n, e⟩ := binary_mul hl.binary
      exact ⟨-2 * n, by rw [e]; push_cast; ring⟩
    have := srnd_rel hp hmul
    rw [abs_of_nonneg a0, div_eq_mul_one_div] at this
    linarith [(abs_le.1 this).2]
  replace hM2 : f.srnd (-2 * l) ≤ -2 * l * (1 + 1 / 2 ^ f.prec) := by
    rcases hM2 with h | h
    · rw [h]; nlinarith
    · exact h
  obtain ⟨m0, m1⟩ := srnd_bound hf a0 a1
  generalize f.srnd (-2 * l) = L at *
  have L1 : L ≤ 4 * f.prec * (70011 / 100000) := by
    have : -2 * l * (1 + 1 / 2 ^ f.prec) ≤ -2 * l * (1 + 1 / 16777216) := mul_le_mul_of_nonneg_left (by linarith) a0
    have : (0 : ℚ) ≤ f.prec := Nat.cast_nonneg _
    linarith
  -- the quotient
  have q0 : 0 ≤ L / r := div_nonneg m0 hr0.le
  have q1 : L / r ≤ 2 ^ 120 := by
    rw [div_le_iff₀ hr0]
    have h1 : (1 : ℚ) / 2 ^ 106 ≤ r := by
      refine le_trans ?_ hr
      apply one_div_le_one_div_of_le (by positivity)
      apply pow_le_pow_right₀ (by norm_num)
      rcases hf with rfl | rfl <;> decide
    linarith
  have hQm : |L / r| ≤ f.maxVal := by
    rw [abs_of_nonneg q0]
    refine q1.trans ?_
    rcases hf with rfl | rfl <;> decide +kernel
  have dq := div_stands hf m hs hr0.ne' hQm
  have hQ0 : 0 ≤ f.srnd (L / r) := srnd_pos_le q0
  have hQ := srnd_err (f := f) (L / r)
  rw [abs_of_nonneg q0, div_eq_mul_one_div (L / r)] at hQ
  have hQ := (abs_le.1 hQ).2
  generalize f.srnd (L / r) = Q at *
  have hbQ : b ^ 2 * Q ≤ L * (1 + 1 / 1000000) + 1 / 1000000 := by
    have b0 : 0 ≤ b ^ 2 := sq_nonneg b
    have b1 : b ^ 2 * (1 - 1 / 16777216) ≤ r := le_trans (mul_le_mul_of_nonneg_left (by linarith) b0) hbr
    have h1 : b ^ 2 * Q ≤ b ^ 2 * (L / r * (1 + 1 / 16777216) + 1 / 2 ^ 100) := by
      apply mul_le_mul_of_nonneg_left _ b0
      have := mul_le_mul_of_nonneg_left hu q0
      linarith
    have h2 : b ^ 2 * (L / r) * (1 - 1 / 16777216) ≤ L := by
      have := mul_le_mul_of_nonneg_right b1 q0
      have e : r * (L / r) = L := by field_simp
      linarith
    have h3 : b ^ 2 ≤ 2 := by linarith
    linarith
  have hfin : ∀ K : ℚ, 0 < K → (4 * f.prec * (7002 / 10000) : ℚ) ≤ K ^ 2 → b ^ 2 * Q ≤ K ^ 2 := by
    intro K _ hK
    have h50 : (24 : ℚ) ≤ f.prec := by rcases hf with rfl | rfl <;> norm_num [Fmt.double, Fmt.single]
    linarith
  have hreach : ∃ K : ℚ, 0 < K ∧ (4 * f.prec * (7002 / 10000) : ℚ) ≤ K ^ 2 ∧ K * (1 + 1 / 10000000) ≤ reach f ∧ IsBinary f.prec f.emin (reach f) ∧
      reach f ≤ 2 ^ 4 := by
    rcases hf with rfl | rfl
    · exact ⟨1219 / 100, by norm_num, by norm_num [Fmt.double], by norm_num [reach_double, reach_single], ⟨49, -2, by decide, by decide, by norm_num [reach_double, reach_single]⟩,
        by norm_num [reach_double, reach_single]⟩
    · exact ⟨82 / 10, by norm_num, by norm_num [Fmt.single], by norm_num [reach_double, reach_single], ⟨33, -2, by decide, by decide, by norm_num [reach_double, reach_single]⟩,
        by norm_num [reach_double, reach_single]⟩
  obtain ⟨K, K0, hK, hKr, hKb, hK4⟩ := hreach
  have hbK := hfin K K0 hK
  -- the root
  have root : ∃ R : ℚ, Stands f (f.sqrt (f.div (f.mul (.fin true 2) (log sq)) sq)) R ∧ |b| * R ≤ K * (1 + 1 / 10000000) ∧ 0 ≤ R := by
    rcases hQ0.eq_or_lt with e | hpos
    · refine ⟨0, ?_, by rw [mul_zero]; positivity, le_rfl⟩
      rw [← e] at dq
      obtain ⟨s, m', e1, e2⟩ := dq.fin
      rw [e1]
      have : m' = 0 := by cases s <;> simpa [Flt.val] using e2
      subst this
      simp only [Fmt.sqrt, if_true]
      exact zero_stands f hf s
    · obtain ⟨R, -, hR, -, hRe⟩ := C111_root_nearest f hf _ _ dq hpos
      have hR0 : 0 ≤ R := by
        have h1 := (abs_le.1 hRe).1
        have h2 := Real.sqrt_nonneg (Q : ℝ)
        have h3 : √(Q : ℝ) / 2 ^ f.prec ≤ √(Q : ℝ) := div_le_self h2 (one_le_pow₀ (by norm_num))
        have : (0 : ℝ) ≤ R := by linarith
        exact_mod_cast this
      refine ⟨R, hR, ?_, hR0⟩
      have h1 := (abs_le.1 hRe).2
      have h2 := Real.sqrt_nonneg (Q : ℝ)
      have h3 : √(Q : ℝ) / 2 ^ f.prec ≤ √(Q : ℝ) * (1 / 16777216) := by
        rw [div_eq_mul_one_div]
        exact mul_le_mul_of_nonneg_left (one_div_le_one_div_of_le (by norm_num) (prec_real hf)) h2
      have h4 : |(b : ℝ)| * √(Q : ℝ) ≤ K := by
        have hQR : (0 : ℝ) ≤ Q := by exact_mod_cast hQ0
        have hKR : (0 : ℝ) ≤ K := by exact_mod_cast K0.le
        apply abs_le_of_sq_le_sq' _ hKR |>.2
        rw [mul_pow, sq_abs, Real.sq_sqrt hQR]
        exact_mod_cast hbK
      have h5 : |(b : ℝ)| * R ≤ K * (1 + 1 / 10000000) := by
        have hb0 := abs_nonneg (b : ℝ)
        have : |(b : ℝ)| * R ≤ |(b : ℝ)| * (√(Q : ℝ) * (1 + 1 / 16777216)) := mul_le_mul_of_nonneg_left (by linarith) hb0
        have hKR : (0 : ℝ) ≤ K := by exact_mod_cast K0.le
        have e : |(b : ℝ)| * (√(Q : ℝ) * (1 + 1 / 16777216)) = |(b : ℝ)| * √(Q : ℝ) * (1 + 1 / 16777216) := by ring
        rw [e] at this
        have := mul_le_mul_of_nonneg_right h4 (by norm_num : (0 : ℝ) ≤ 1 + 1 / 16777216)
        linarith
      have h6 : ((|b| * R : ℚ) : ℝ) ≤ ((K * (1 + 1 / 10000000) : ℚ) : ℝ) := by push_cast; exact h5
      exact_mod_cast h6
  obtain ⟨R, hR, hbR, hR0⟩ := root
  have hz : |b * R| ≤ reach f := by rw [abs_mul, abs_of_nonneg hR0]; linarith
  have hzm : |b * R| ≤ f.maxVal := by
    refine hz.trans (hK4.trans (le_trans ?_ hM))
    norm_num
  refine ⟨_, mul_stands hf hy hR hzm, ?_⟩
  have := abs_le.1 hz
  rw [abs_le]
  exact ⟨Fmt.le_srnd hp (Fmt.isBinary_neg hKb) this.1, Fmt.srnd_le hp hKb this.2⟩

/-- A normally distributed number is always a number, and is never further from the mean than 12.5 standard deviations (8.5 for `float`),
apart from the rounding of the mean. -/
theorem C116_bound (log : Flt → Flt) (f : Fmt) (hf : f = .double ∨ f = .single) (hlog : GoodLog f log) (mean stdev : Flt) (μ σ : ℚ)
    (hm : Stands f mean μ) (hs : Stands f stdev σ) (h1 : |μ| ≤ f.maxVal / 4) (h2 : |σ| ≤ f.maxVal / 32) (s i n : Nat) (hn : 2 ^ 31 ≤ n) :
    ∃ v x r, norm log f n mean stdev (next^[i] (seed s)) = .ok (v, x) ∧ Stands f v r ∧
      |r - μ| ≤ (if f = .double then 25 / 2 else 17 / 2) * |σ| + |μ| / 2 ^ f.prec + 2 ^ f.emin := by
  have hp := prec_pos hf
  obtain ⟨h24, hn0, hn', hM⟩ := fmt_consts hf
  have hx := iter_range (seed_range s) i
  obtain ⟨j, -, ⟨hd, -⟩, hall⟩ := norm_eq log hf mean stdev hx
  obtain ⟨b, r, hb, hr, -, r1, r2, r3⟩ := disk_point hf (iter_range hx _) hd
  obtain ⟨z, hz, hzr⟩ := sample_bound hf hlog hb hr r1 r2 r3
  have hreach : reach f ≤ 16 ∧ 0 < reach f ∧ (if f = .double then 25 / 2 else 17 / 2 : ℚ) = reach f + 1 / 4 := by
    rcases hf with rfl | rfl
    · norm_num [reach_double, reach_single]
    · have : ¬ Fmt.single = .double := by decide
      norm_num [reach_single, this]
  obtain ⟨k1, k2, k3⟩ := hreach
  have σ0 := abs_nonneg σ
  have p1 : |z * σ| ≤ reach f * |σ| := by rw [abs_mul]; exact mul_le_mul_of_nonneg_right hzr σ0
  have p2 : |z * σ| ≤ f.maxVal / 2 := p1.trans ((mul_le_mul_of_nonneg_right k1 σ0).trans (by linarith))
  have t := mul_stands hf hz hs (by linarith)
  have te := srnd_err (f := f) (z * σ)
  have hu0 : (0 : ℚ) < 1 / 2 ^ f.prec := by positivity
  have hu : 1 / (2 : ℚ) ^ f.prec ≤ 1 / 16777216 := by
    apply one_div_le_one_div_of_le (by norm_num)
    norm_num at h24 ⊢; exact h24
  rw [div_eq_mul_one_div] at te
  have ta : |f.srnd (z * σ)| ≤ |z * σ| * (1 + 1 / 16777216) + 2 ^ f.emin / 2 := by
    have h3 := abs_sub_abs_le_abs_sub (f.srnd (z * σ)) (z * σ)
    have h4 := mul_le_mul_of_nonneg_left hu (abs_nonneg (z * σ))
    linarith
  have tb := t.binary
  generalize f.srnd (z * σ) = T at *
  have sm : |T + μ| ≤ f.maxVal := by
    have := abs_add_le T μ
    have : (2 : ℚ) ^ f.emin ≤ 1 := hn'.trans (by norm_num)
    have : (2 : ℚ) ^ 100 = 1267650600228229401496703205376 := by norm_num
    linarith
  have v := add_stands hf t hm sm
  refine ⟨_, _, _, hall n hn, v, ?_⟩
  have ve := srnd_rel hp (multiple_add (binary_mul tb) (binary_mul hm.binary))
  rw [div_eq_mul_one_div] at ve
  have h5 := abs_sub_le (f.srnd (T + μ)) (T + μ) μ
  rw [add_sub_cancel_right] at h5
  have h6 : |T + μ| * (1 / 2 ^ f.prec) ≤ (|T| + |μ|) * (1 / 2 ^ f.prec) := mul_le_mul_of_nonneg_right (abs_add_le T μ) hu0.le
  have h7 := mul_le_mul_of_nonneg_left hu (abs_nonneg T)
  have h8 : |μ| / 2 ^ f.prec = |μ| * (1 / 2 ^ f.prec) := by ring
  rw [k3, h8]
  have h9 := mul_le_mul_of_nonneg_right k1 σ0
  linarith

/-- Without deviation the number is the mean. -/
theorem C116_constant (log : Flt → Flt) (f : Fmt) (hf : f = .double ∨ f = .single) (hlog : GoodLog f log) (mean stdev : Flt) (μ : ℚ)
    (hm : Stands f mean μ) (hs : Stands f stdev 0) (s i n : Nat) (hn : 2 ^ 31 ≤ n) :
    ∃ v x, norm log f n mean stdev (next^[i] (seed s)) = .ok (v, x) ∧ Stands f v μ := by
  have hx := iter_range (seed_range s) i
  obtain ⟨j, -, ⟨hd, -⟩, hall⟩ := norm_eq log hf mean stdev hx
  obtain ⟨b, r, hb, hr, -, r1, r2, r3⟩ := disk_point hf (iter_range hx _) hd
  obtain ⟨z, hz, hzr⟩ := sample_bound hf hlog hb hr r1 r2 r3
  have t := mul_stands hf hz hs (by rw [mul_zero, abs_zero]; exact (maxVal_pos hf).le)
  rw [mul_zero, Fmt.srnd_zero] at t
  have v := add_stands hf t hm (by rw [zero_add]; exact hm.abs_le)
  rw [zero_add, Fmt.srnd_self (prec_pos hf) hm.binary] at v
  exact ⟨_, _, hall n hn, v⟩

/-! ## Examples -/

/-- There are such logarithms. -/
theorem goodLog_exists {f : Fmt} (hf : f = .double ∨ f = .single) : ∃ log, GoodLog f log := by
  have hp := prec_pos hf
  obtain ⟨h24, hn0, hn, hM⟩ := fmt_consts hf
  suffices h : ∀ x q, Stands f x q → 0 < q → q ≤ 1 → ∃ y l, Stands f y l ∧ |(l : ℝ) - Real.log q| ≤ |Real.log q| / 100 by
    classical
    refine ⟨fun x => if h : ∃ y q l, Stands f x q ∧ Stands f y l ∧ |(l : ℝ) - Real.log q| ≤ |Real.log q| / 100 then h.choose else x, ?_⟩
    intro x q hx h0 h1
    obtain ⟨y, l, hy, hl⟩ := h x q hx h0 h1
    have hex : ∃ y q l, Stands f x q ∧ Stands f y l ∧ |(l : ℝ) - Real.log q| ≤ |Real.log q| / 100 := ⟨y, q, l, hx, hy, hl⟩
    simp only [dif_pos hex]
    obtain ⟨q', l', hx', hy', hl'⟩ := hex.choose_spec
    have : q' = q := by
      obtain ⟨s, m, e1, e2⟩ := hx.fin
      obtain ⟨s', m', e1', e2'⟩ := hx'.fin
      rw [e1] at e1'
      cases e1'
      rw [← e2, ← e2']
    subst this
    exact ⟨l', hy', hl'⟩
  intro x q hx h0 h1
  rcases h1.eq_or_lt with rfl | h1
  · exact ⟨_, 0, zero_stands f hf false, by simp⟩
  have hqR : (0 : ℝ) < q := by exact_mod_cast h0
  have hlt : Real.log q < 0 := Real.log_neg hqR (by exact_mod_cast h1)
  have hup : Real.log q ≤ -((1 / 2 ^ f.prec : ℚ) : ℝ) := by
    have h2 := Real.log_le_sub_one_of_pos hqR
    have h3 : (q : ℝ) ≤ ((1 - 1 / 2 ^ f.prec : ℚ) : ℝ) := by
      have := binary_lt_one hp hx.binary h1
      exact_mod_cast (by linarith : q ≤ 1 - 1 / 2 ^ f.prec)
    push_cast at h3 ⊢
    linarith
  have hlo : -1100 ≤ Real.log q := by
    obtain ⟨n, e⟩ := binary_mul hx.binary
    have n1 : 1 ≤ n := by
      by_contra hc
      have : (n : ℚ) ≤ 0 := by exact_mod_cast (by omega : n ≤ 0)
      have := mul_nonpos_of_nonpos_of_nonneg this hn0.le
      linarith
    have h2 : (2 : ℚ) ^ f.emin ≤ q := by
      have : (1 : ℚ) ≤ n := by exact_mod_cast n1
      rw [e]
      have := mul_le_mul_of_nonneg_right this hn0.le
      linarith
    have h3 : (((2 : ℚ) ^ f.emin : ℚ) : ℝ) ≤ q := by exact_mod_cast h2
    have h4 := Real.log_le_log (by exact_mod_cast hn0) h3
    push_cast at h4
    rw [Real.log_zpow] at h4
    have h5 := Real.log_two_lt_d9
    have h6 : (-1100 : ℝ) ≤ f.emin := by rcases hf with rfl | rfl <;> norm_num [Fmt.double, Fmt.single]
    have h7 := Real.log_two_gt_d9
    have h8 := mul_le_mul_of_nonneg_right h6 (by linarith : 0 ≤ Real.log 2)
    linarith
  obtain ⟨t, t1, t2⟩ := exists_rat_btwn (show Real.log q < Real.log q + -Real.log q / 1000 by linarith)
  have tn : (t : ℝ) < 0 := by linarith
  have t0 : t < 0 := by exact_mod_cast tn
  have tb : |t| ≤ 1100 := by
    rw [abs_of_neg t0]
    have : ((-t : ℚ) : ℝ) ≤ ((1100 : ℚ) : ℝ) := by push_cast; linarith
    exact_mod_cast this
  have hst := stands_rat hf (show |t| ≤ f.maxVal by linarith [(by norm_num : (1100 : ℚ) ≤ 2 ^ 100)])
  refine ⟨_, _, hst, ?_⟩
  have e := srnd_err (f := f) t
  rw [abs_of_neg t0] at e
  have hu : 1 / (2 : ℚ) ^ f.prec ≤ 1 / 16777216 := by
    apply one_div_le_one_div_of_le (by norm_num)
    norm_num at h24 ⊢; exact h24
  have hem : (2 : ℚ) ^ f.emin ≤ 1 / 2 ^ f.prec * (1 / 1000) := by rcases hf with rfl | rfl <;> decide +kernel
  have e2 : |f.srnd t - t| ≤ -t * (1 / 16777216) + 1 / 2 ^ f.prec * (1 / 1000) := by
    rw [div_eq_mul_one_div] at e
    have := mul_le_mul_of_nonneg_left hu (by linarith : 0 ≤ -t)
    linarith
  have e3 : |((f.srnd t : ℚ) : ℝ) - t| ≤ -t * (1 / 16777216) + ((1 / 2 ^ f.prec : ℚ) : ℝ) * (1 / 1000) := by
    have : ((|f.srnd t - t| : ℚ) : ℝ) ≤ ((-t * (1 / 16777216) + 1 / 2 ^ f.prec * (1 / 1000) : ℚ) : ℝ) := by exact_mod_cast e2
    rw [Rat.cast_abs, Rat.cast_sub, Rat.cast_add, Rat.cast_mul, Rat.cast_mul] at this
    norm_num at this ⊢
    linarith
  rw [abs_of_neg hlt]
  have := abs_le.1 e3
  rw [abs_le]
  constructor <;> linarith

example : ∃ log, GoodLog .double log ∧ ∃ v x r, norm log .double (2 ^ 31) (.fin false 5) (.fin false 2) (next^[100] (seed 42)) = .ok (v, x) ∧
    Stands .double v r ∧ |r - 5| ≤ 26 := by
  have e5 : Fmt.double.ofRat 5 = .fin false 5 := by decide +kernel
  have e2 : Fmt.double.ofRat 2 = .fin false 2 := by decide +kernel
  obtain ⟨log, h⟩ := goodLog_exists (.inl rfl)
  obtain ⟨v, x, r, h1, h2, h3⟩ := C116_bound log .double (.inl rfl) h (.fin false 5) (.fin false 2) 5 2
    (by simpa [e5] using nat_double (n := 5) (by norm_num)) (by simpa [e2] using nat_double (n := 2) (by norm_num)) (by decide +kernel)
    (by decide +kernel) 42 100 (2 ^ 31) le_rfl
  refine ⟨log, h, v, x, r, h1, h2, h3.trans ?_⟩
  decide +kernel

/-- The first round with seed 42 ends in the disk: the number of draws is four. -/
example : inDisk .double (seed 42) = true := by decide +kernel

end Flut
