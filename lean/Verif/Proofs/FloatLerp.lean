import Verif.Proofs.FloatOps
import Verif.Model.FloatData

/-! # Interpolation in floating-point arithmetic -/

namespace Flut

open Spec FloatMath

/-- Half a unit of the last place of one, and the smallest number. -/
theorem fmt_consts {f : Fmt} (hf : f = .double ∨ f = .single) : (2 : ℚ) ^ 24 ≤ 2 ^ f.prec ∧ 0 < (2 : ℚ) ^ f.emin ∧
    (2 : ℚ) ^ f.emin ≤ 1 / 2 ^ 100 ∧ (2 : ℚ) ^ 100 ≤ f.maxVal := by
  rcases hf with rfl | rfl
  · refine ⟨?_, by positivity, ?_, ?_⟩
    · exact pow_le_pow_right₀ (by norm_num) (by decide)
    · show (2 : ℚ) ^ (-1074 : Int) ≤ _
      rw [one_div, ← zpow_natCast, ← zpow_neg]
      exact zpow_le_zpow_right₀ (by norm_num) (by norm_num)
    · have h1 : (2 : ℚ) ^ 100 ≤ 2 ^ (971 : Int) := by
        rw [← zpow_natCast]; exact zpow_le_zpow_right₀ (by norm_num) (by norm_num)
      have h2 : (1 : ℚ) ≤ 2 ^ 53 - 1 := by norm_num
      calc (2 : ℚ) ^ 100 ≤ 1 * 2 ^ (971 : Int) := by rw [one_mul]; exact h1
        _ ≤ (2 ^ 53 - 1) * 2 ^ (971 : Int) := mul_le_mul_of_nonneg_right h2 (by positivity)
        _ = _ := rfl
  · refine ⟨?_, by positivity, ?_, ?_⟩
    · exact pow_le_pow_right₀ (by norm_num) (by decide)
    · show (2 : ℚ) ^ (-149 : Int) ≤ _
      rw [one_div, ← zpow_natCast, ← zpow_neg]
      exact zpow_le_zpow_right₀ (by norm_num) (by norm_num)
    · norm_num [Fmt.maxVal, Fmt.single]

theorem one_stands {f : Fmt} (hf : f = .double ∨ f = .single) : Stands f (.fin false 1) 1 := by
  have h := fmt_consts hf
  refine ⟨⟨by norm_num, by linarith [h.2.2.2, (by norm_num : (1 : ℚ) ≤ 2 ^ 100)], ?_⟩, rfl⟩
  simpa using pow_binary hf 0

theorem zero_stands (f : Fmt) (hf : f = .double ∨ f = .single) (s : Bool) : Stands f (.fin s 0) 0 :=
  ⟨⟨le_refl _, by linarith [(fmt_consts hf).2.2.2, (by norm_num : (0 : ℚ) ≤ 2 ^ 100)], zero_binary f⟩, by
    cases s <;> simp [Flt.pos]⟩

theorem abs_convex {q a b M : ℚ} (h0 : 0 ≤ q) (h1 : q ≤ 1) (ha : |a| ≤ M) (hb : |b| ≤ M) :
    |(1 - q) * a| ≤ (1 - q) * M ∧ |q * b| ≤ q * M := by
  constructor
  · rw [abs_mul, abs_of_nonneg (by linarith : 0 ≤ 1 - q)]
    exact mul_le_mul_of_nonneg_left ha (by linarith)
  · rw [abs_mul, abs_of_nonneg h0]
    exact mul_le_mul_of_nonneg_left hb h0

/-- The error of the sum of the two rounded products. -/
theorem lerp_sum {q a b M u n c A B : ℚ} (h0 : 0 ≤ q) (h1 : q ≤ 1) (ha : |a| ≤ M) (hb : |b| ≤ M) (hu0 : 0 < u)
    (hu : u ≤ 1 / 1000) (c2 : |c - (1 - q)| ≤ (1 - q) * u) (c3 : 0 ≤ c) (e1 : |A - c * a| ≤ |c * a| * u + n / 2)
    (e2 : |B - q * b| ≤ |q * b| * u + n / 2) :
    |A + B - ((1 - q) * a + q * b)| ≤ 2 * (u * M) + u * M / 1000 + n := by
  have hM0 : 0 ≤ M := (abs_nonneg a).trans ha
  have hq1 : 0 ≤ 1 - q := by linarith
  have huM0 : 0 ≤ u * M := by positivity
  have hca : |c * a| ≤ c * M := by
    rw [abs_mul, abs_of_nonneg c3]; exact mul_le_mul_of_nonneg_left ha c3
  have hqb : |q * b| ≤ q * M := (abs_convex h0 h1 ha hb).2
  have hcle : c ≤ (1 - q) * (1 + u) := by have := (abs_le.1 c2).2; linarith
  have E1 : |A - c * a| ≤ c * M * u + n / 2 := by
    have : |c * a| * u ≤ c * M * u := mul_le_mul_of_nonneg_right hca hu0.le
    linarith
  have E2 : |B - q * b| ≤ q * M * u + n / 2 := by
    have : |q * b| * u ≤ q * M * u := mul_le_mul_of_nonneg_right hqb hu0.le
    linarith
  have E0 : |c * a - (1 - q) * a| ≤ (1 - q) * u * M := by
    rw [← sub_mul, abs_mul]
    exact mul_le_mul c2 ha (abs_nonneg _) (by positivity)
  have hcMu : c * M * u ≤ (1 - q) * (u * M) + u * M / 1000 := by
    have h3 : c * (u * M) ≤ (1 - q) * (1 + u) * (u * M) := mul_le_mul_of_nonneg_right hcle huM0
    have h4 : (1 - q) * (1 + u) * (u * M) = (1 - q) * (u * M) + ((1 - q) * u) * (u * M) := by ring
    have h5 : (1 - q) * u ≤ 1 / 1000 := by
      have : (1 - q) * u ≤ 1 * u := mul_le_mul_of_nonneg_right (by linarith) hu0.le
      linarith
    have h6 : ((1 - q) * u) * (u * M) ≤ 1 / 1000 * (u * M) := mul_le_mul_of_nonneg_right h5 huM0
    have h7 : c * M * u = c * (u * M) := by ring
    linarith
  have e : A + B - ((1 - q) * a + q * b) = (A - c * a) + (c * a - (1 - q) * a) + (B - q * b) := by ring
  rw [e]
  have t1 := abs_add_le ((A - c * a) + (c * a - (1 - q) * a)) (B - q * b)
  have t2 := abs_add_le (A - c * a) (c * a - (1 - q) * a)
  have h7 : (1 - q) * u * M + q * M * u = u * M := by ring
  have h8 : (1 - q) * (u * M) ≤ 1 * (u * M) := mul_le_mul_of_nonneg_right (by linarith) huM0
  linarith

theorem lerp_total {M u n S V : ℚ} (hM0 : 0 ≤ M) (hu0 : 0 < u) (hu : u ≤ 1 / 1000) (hn : 0 ≤ n) {T : ℚ}
    (hS : |S - V| ≤ 2 * (u * M) + u * M / 1000 + n) (hV : |V| ≤ M) (hT : |T - S| ≤ |S| * u) :
    |S| ≤ 2 * M + n ∧ |T - V| ≤ 4 * (u * M) + 2 * n := by
  have huM0 : 0 ≤ u * M := by positivity
  have huM : u * M ≤ 1 / 1000 * M := mul_le_mul_of_nonneg_right hu hM0
  have hsum : |S| ≤ M + (2 * (u * M) + u * M / 1000 + n) := by
    have e : S = V + (S - V) := by ring
    rw [e]
    exact (abs_add_le _ _).trans (by linarith)
  refine ⟨by linarith, ?_⟩
  have t := abs_add_le (T - S) (S - V)
  have e : T - S + (S - V) = T - V := by ring
  rw [e] at t
  have h9 : |S| * u ≤ (M + (2 * (u * M) + u * M / 1000 + n)) * u := mul_le_mul_of_nonneg_right hsum hu0.le
  have h10 : (M + (2 * (u * M) + u * M / 1000 + n)) * u = u * M + (2 + 1 / 1000) * (u * (u * M)) + u * n := by ring
  have h11 : u * (u * M) ≤ 1 / 1000 * (u * M) := mul_le_mul_of_nonneg_right hu huM0
  have h12 : u * n ≤ 1 / 1000 * n := mul_le_mul_of_nonneg_right hu hn
  linarith

/-- The rounding error of `( 1 - w ) * a + w * b` for a weight between 0 and 1. -/
theorem lerp_err {f : Fmt} (hf : f = .double ∨ f = .single) {w x y : Flt} {q a b M : ℚ} (hw : Stands f w q)
    (h0 : 0 ≤ q) (h1 : q ≤ 1) (hx : Stands f x a) (hy : Stands f y b) (ha : |a| ≤ M) (hb : |b| ≤ M)
    (hM : 4 * M ≤ f.maxVal) : ∃ v, Stands f (lerp f w x y) v ∧
      |v - ((1 - q) * a + q * b)| ≤ 4 * M / 2 ^ f.prec + 2 * 2 ^ f.emin := by
  have hp := prec_pos hf
  obtain ⟨k1, k2, k3, k4⟩ := fmt_consts hf
  have hM0 : 0 ≤ M := (abs_nonneg a).trans ha
  obtain ⟨u, hu⟩ : ∃ u : ℚ, u = 1 / 2 ^ f.prec := ⟨_, rfl⟩
  obtain ⟨n, hn⟩ : ∃ n : ℚ, n = 2 ^ f.emin := ⟨_, rfl⟩
  have hu0 : 0 < u := by rw [hu]; positivity
  have hu1 : u ≤ 1 / 2 ^ 24 := by
    rw [hu]
    exact one_div_le_one_div_of_le (by norm_num) k1
  have hdiv : ∀ z : ℚ, z / 2 ^ f.prec = z * u := by intro z; rw [hu]; ring
  rw [← hn] at k2 k3
  have hu2 : u ≤ 1 / 1000 := hu1.trans (by norm_num)
  have hn1 : n ≤ 1 / 1000 := k3.trans (by norm_num)
  have hmax : 1000 ≤ f.maxVal := le_trans (by norm_num) k4
  -- 1 - w
  have c1 := sub_stands hf (one_stands hf) hw (by
    rw [abs_of_nonneg (by linarith)]; linarith)
  have c2 : |f.srnd (1 - q) - (1 - q)| ≤ (1 - q) * u := by
    have := srnd_rel (f := f) hp (q := 1 - q) (by
      rw [sub_eq_add_neg]
      exact multiple_add (binary_mul (one_stands hf).binary) (multiple_neg (binary_mul hw.binary)))
    rwa [hdiv, abs_of_nonneg (by linarith : 0 ≤ 1 - q)] at this
  have c3 : 0 ≤ f.srnd (1 - q) := srnd_pos_le (by linarith)
  have c4 : f.srnd (1 - q) ≤ 1 := Fmt.srnd_le hp (one_stands hf).binary (by linarith)
  generalize f.srnd (1 - q) = c at c1 c2 c3 c4
  have hca : |c * a| ≤ M := by
    rw [abs_mul, abs_of_nonneg c3]
    exact (mul_le_mul c4 ha (abs_nonneg _) (by norm_num)).trans (by rw [one_mul])
  have hqb : |q * b| ≤ M := by
    rw [abs_mul, abs_of_nonneg h0]
    exact (mul_le_mul h1 hb (abs_nonneg _) (by norm_num)).trans (by rw [one_mul])
  have p1 := mul_stands hf c1 hx (by linarith)
  have p2 := mul_stands hf hw hy (by linarith)
  have e1 := srnd_err (f := f) (c * a)
  have e2 := srnd_err (f := f) (q * b)
  generalize f.srnd (c * a) = A at p1 e1
  generalize f.srnd (q * b) = B at p2 e2
  rw [hdiv, ← hn] at e1 e2
  have D := lerp_sum h0 h1 ha hb hu0 hu2 c2 c3 e1 e2
  have hex : |(1 - q) * a + q * b| ≤ M := by
    have := abs_convex h0 h1 ha hb
    have h3 := abs_add_le ((1 - q) * a) (q * b)
    have h4 : (1 - q) * M + q * M = M := by ring
    linarith [this.1, this.2]
  have s2 : |f.srnd (A + B) - (A + B)| ≤ |A + B| * u := by
    have := srnd_rel (f := f) hp (q := A + B) (multiple_add (binary_mul p1.binary) (binary_mul p2.binary))
    rwa [hdiv] at this
  obtain ⟨t1, t2⟩ := lerp_total hM0 hu0 hu2 k2.le D hex s2
  refine ⟨_, add_stands hf p1 p2 (by linarith), ?_⟩
  rw [hdiv, ← hn]
  linarith

/-- With weight zero the result is the first value. -/
theorem lerp_zero {f : Fmt} (hf : f = .double ∨ f = .single) {w x y : Flt} {a b : ℚ} (hw : Stands f w 0)
    (hx : Stands f x a) (hy : Stands f y b) : Stands f (lerp f w x y) a := by
  have hp := prec_pos hf
  have hmax : 1 ≤ f.maxVal := le_trans (by norm_num) (fmt_consts hf).2.2.2
  have c1 := sub_stands hf (one_stands hf) hw (by norm_num; exact hmax)
  rw [sub_zero, Fmt.srnd_self hp (one_stands hf).binary] at c1
  have p1 := mul_stands hf c1 hx (by rw [one_mul]; exact hx.abs_le)
  rw [one_mul, Fmt.srnd_self hp hx.binary] at p1
  have p2 := mul_stands hf hw hy (by rw [zero_mul, abs_zero]; linarith)
  rw [zero_mul, Fmt.srnd_zero] at p2
  have s := add_stands hf p1 p2 (by rw [add_zero]; exact hx.abs_le)
  rwa [add_zero, Fmt.srnd_self hp hx.binary] at s

/-- The fractional part of a number is a number. -/
theorem fract_binary {p : Nat} {e : Int} {x : ℚ} (h : IsBinary p e x) (hx : 0 ≤ x) :
    IsBinary p e (x - ⌊x⌋) ∧ IsBinary p e ⌊x⌋ := by
  obtain ⟨m, k, hm, hk, rfl⟩ := h
  have hm0 : 0 ≤ m := by
    by_contra hc
    have : (m : ℚ) < 0 := by exact_mod_cast not_le.1 hc
    have : (m : ℚ) * 2 ^ k < 0 := mul_neg_of_neg_of_pos this (by positivity)
    linarith
  rw [abs_of_nonneg hm0] at hm
  rcases le_or_gt 0 k with h0 | h0
  · obtain ⟨j, rfl⟩ := Int.eq_ofNat_of_zero_le h0
    have : (m : ℚ) * 2 ^ (j : Int) = ((m * 2 ^ j : Int) : ℚ) := by push_cast; rw [zpow_natCast]
    rw [this, Int.floor_intCast, sub_self]
    refine ⟨⟨0, e, by simp, le_rfl, by simp⟩, ⟨m, j, by rwa [abs_of_nonneg hm0], hk, by rw [← this]⟩⟩
  · obtain ⟨j, rfl⟩ : ∃ j : Nat, k = -(j : Int) := ⟨(-k).toNat, by omega⟩
    have hj : (0 : ℚ) < 2 ^ j := by positivity
    have e1 : (m : ℚ) * 2 ^ (-(j : Int)) = (m : ℚ) / ((2 ^ j : Int) : ℚ) := by
      rw [zpow_neg, zpow_natCast]; push_cast; rw [div_eq_mul_inv]
    have e2 : ⌊(m : ℚ) * 2 ^ (-(j : Int))⌋ = m / 2 ^ j := by
      rw [e1]
      have := Rat.floor_intCast_div_natCast m (2 ^ j)
      rw [show ((2 ^ j : Int) : ℚ) = ((2 ^ j : ℕ) : ℚ) by push_cast; rfl, this]; push_cast; rfl
    rw [e2]
    have hmod := Int.emod_add_mul_ediv m (2 ^ j)
    have hmod0 := Int.emod_nonneg m (by positivity : (2 ^ j : Int) ≠ 0)
    have hdiv0 : 0 ≤ m / 2 ^ j := Int.ediv_nonneg hm0 (by positivity)
    have hle : m % 2 ^ j ≤ m := by
      have : 0 ≤ 2 ^ j * (m / 2 ^ j) := by positivity
      omega
    have hq : (m : ℚ) = (m % 2 ^ j : Int) + 2 ^ j * (m / 2 ^ j : Int) := by exact_mod_cast hmod.symm
    refine ⟨⟨m % 2 ^ j, -(j : Int), by rw [abs_of_nonneg hmod0]; omega, hk, ?_⟩, ⟨(m / 2 ^ j) * 2 ^ j, -(j : Int), ?_, hk, ?_⟩⟩
    · rw [e1, zpow_neg, zpow_natCast]
      push_cast
      rw [hq]
      field_simp
      push_cast
      ring
    · have : 0 ≤ (m / 2 ^ j) * 2 ^ j := by positivity
      rw [abs_of_nonneg this]
      have : 2 ^ j * (m / 2 ^ j) = (m / 2 ^ j) * 2 ^ j := by ring
      omega
    · push_cast
      rw [zpow_neg, zpow_natCast]
      field_simp

end Flut
