import Verif.Proofs.FloatOps
import Mathlib.Analysis.Real.Pi.Bounds

/-! # C101: the constants for π and the conversion of angles in floating-point arithmetic -/

namespace Flut

open Spec FloatMath

theorem pi_single : pi .single = .fin false (13176795 / 4194304) := by decide +kernel

theorem pi_double : pi .double = .fin false (7074237752028433 / 2251799813685248) := by decide +kernel

/-- For `float`, the constant is the nearest number to π that there is. -/
theorem C101_pi_float (z : ℚ) (hz : IsBinary Fmt.single.prec Fmt.single.emin z) :
    |((pi .single).val : ℝ) - Real.pi| ≤ |(z : ℝ) - Real.pi| := by
  have h1 := Real.pi_gt_d20
  have h2 := Real.pi_lt_d20
  rw [pi_single]
  by_contra hc
  rw [not_le] at hc
  simp only [Flt.val] at hc
  have h3 : |((((if false = true then -(13176795 / 4194304) else 13176795 / 4194304 : ℚ)) : ℝ)) - Real.pi| < 1 / 10000000 := by
    rw [abs_lt]; constructor <;> norm_num <;> linarith
  have h4 := abs_lt.1 (hc.trans h3)
  obtain ⟨m, e, hm, he, rfl⟩ := hz
  have hzq : (3 : ℚ) < m * 2 ^ e ∧ |(m : ℚ) * 2 ^ e - 13176795 / 4194304| < 1 / 4194304 := by
    constructor
    · have : (3 : ℝ) < ((m * 2 ^ e : ℚ) : ℝ) := by linarith
      exact_mod_cast this
    · have : |((m * 2 ^ e : ℚ) : ℝ) - ((13176795 / 4194304 : ℚ) : ℝ)| < ((1 / 4194304 : ℚ) : ℝ) := by
        rw [abs_lt]; push_cast at h4 ⊢; constructor <;> linarith
      exact_mod_cast this
  have he' : (-22 : Int) ≤ e := by
    by_contra hlt
    have h5 : (2 : ℚ) ^ e ≤ 2 ^ (-23 : Int) := zpow_le_zpow_right₀ (by norm_num) (by omega)
    have h6 : (m : ℚ) < 2 ^ 24 := by
      have := (abs_lt.1 hm).2
      exact_mod_cast this
    have h7 : (0 : ℚ) < 2 ^ e := Fmt.pow_pos e
    have h8 : (m : ℚ) * 2 ^ e ≤ 2 ^ 24 * 2 ^ (-23 : Int) := mul_le_mul h6.le h5 h7.le (by norm_num)
    norm_num at h8
    linarith [hzq.1]
  have e1 : (m : ℚ) * 2 ^ e = ((m * 2 ^ (e + 22).toNat : Int) : ℚ) / 4194304 := by
    push_cast
    rw [← zpow_natCast, Int.toNat_of_nonneg (by omega), zpow_add₀ (by norm_num)]
    norm_num
    ring
  have h9 := hzq.2
  rw [e1, ← sub_div, abs_div] at h9
  have h10 : |((m * 2 ^ (e + 22).toNat - 13176795 : Int) : ℚ)| < 1 := by
    rw [abs_of_nonneg (show (0 : ℚ) ≤ 4194304 by norm_num), div_lt_div_iff_of_pos_right (by norm_num)] at h9
    exact_mod_cast h9
  have h11 : (m * 2 ^ (e + 22).toNat : Int) = 13176795 := by
    have : |(m * 2 ^ (e + 22).toNat - 13176795 : Int)| < 1 := by exact_mod_cast h10
    have := Int.abs_lt_one_iff.1 this
    omega
  rw [e1, h11] at hc
  norm_num at hc

/-- For `double` this is false: the literal in the program has too few digits. -/
theorem C101_pi_double_refuted : ∃ z : ℚ, IsBinary Fmt.double.prec Fmt.double.emin z ∧
    |(z : ℝ) - Real.pi| < |((pi .double).val : ℝ) - Real.pi| := by
  have h1 := Real.pi_gt_d20
  have h2 := Real.pi_lt_d20
  refine ⟨7074237752028440 / 2251799813685248, ⟨7074237752028440, -51, by decide, by decide, by norm_num⟩, ?_⟩
  rw [pi_double]
  simp only [Flt.val]
  rw [abs_of_nonpos (by norm_num; linarith), abs_of_nonpos (by norm_num; linarith)]
  norm_num

/-- The constant for `double` is right to fourteen decimals. (Missing: the nearest number.) -/
theorem C101_pi_double_partial : |((pi .double).val : ℝ) - Real.pi| < 33 / 10 ^ 16 := by
  have h1 := Real.pi_gt_d20
  have h2 := Real.pi_lt_d20
  rw [pi_double]
  simp only [Flt.val]
  rw [abs_lt]
  constructor <;> norm_num <;> linarith

/-- The constants for half and twice π are exactly half and twice the one for π. -/
theorem C101_multiples (f : Fmt) (hf : f = .double ∨ f = .single) :
    (∃ p, Stands f (pi f) p ∧ Stands f (halfPi f) (p / 2) ∧ Stands f (twoPi f) (2 * p)) := by
  rcases hf with rfl | rfl
  · have e1 : halfPi .double = .fin false (7074237752028433 / 2251799813685248 / 2) := by decide +kernel
    have e2 : twoPi .double = .fin false (2 * (7074237752028433 / 2251799813685248)) := by decide +kernel
    rw [pi_double, e1, e2]
    refine ⟨7074237752028433 / 2251799813685248, ⟨⟨by norm_num, by decide +kernel, 7074237752028433, -51, by decide, by decide, by norm_num⟩, rfl⟩,
      ⟨⟨by norm_num, by decide +kernel, 7074237752028433, -52, by decide, by decide, by norm_num⟩, rfl⟩,
      ⟨⟨by norm_num, by decide +kernel, 7074237752028433, -50, by decide, by decide, by norm_num⟩, rfl⟩⟩
  · have e1 : halfPi .single = .fin false (13176795 / 4194304 / 2) := by decide +kernel
    have e2 : twoPi .single = .fin false (2 * (13176795 / 4194304)) := by decide +kernel
    rw [pi_single, e1, e2]
    refine ⟨13176795 / 4194304, ⟨⟨by norm_num, by decide +kernel, 13176795, -22, by decide, by decide, by norm_num⟩, rfl⟩,
      ⟨⟨by norm_num, by decide +kernel, 13176795, -23, by decide, by decide, by norm_num⟩, rfl⟩,
      ⟨⟨by norm_num, by decide +kernel, 13176795, -21, by decide, by decide, by norm_num⟩, rfl⟩⟩

/-- The factors used. -/
def perRad (f : Fmt) : ℚ := if f = .double then 15749343949281 / 274877906944 else 469367 / 8192

def perDeg (f : Fmt) : ℚ := if f = .double then 1257642267027277 / 72057594037927936 else 9370165 / 536870912

theorem perRad_stands {f : Fmt} (hf : f = .double ∨ f = .single) : Stands f (f.div (.fin false 180) (pi f)) (perRad f) := by
  rcases hf with rfl | rfl
  · have e : Fmt.double.div (.fin false 180) (pi .double) = .fin false (perRad .double) := by decide +kernel
    rw [e]
    exact ⟨⟨by norm_num [perRad], by decide +kernel, 15749343949281, -38, by decide, by decide, by norm_num [perRad]⟩, rfl⟩
  · have e : Fmt.single.div (.fin false 180) (pi .single) = .fin false (perRad .single) := by decide +kernel
    rw [e]
    exact ⟨⟨by decide +kernel, by decide +kernel, 469367, -13, by decide, by decide, by decide +kernel⟩, rfl⟩

theorem perDeg_stands {f : Fmt} (hf : f = .double ∨ f = .single) : Stands f (f.div (pi f) (.fin false 180)) (perDeg f) := by
  rcases hf with rfl | rfl
  · have e : Fmt.double.div (pi .double) (.fin false 180) = .fin false (perDeg .double) := by decide +kernel
    rw [e]
    exact ⟨⟨by decide +kernel, by decide +kernel, 1257642267027277, -56, by decide, by decide, by decide +kernel⟩, rfl⟩
  · have e : Fmt.single.div (pi .single) (.fin false 180) = .fin false (perDeg .single) := by decide +kernel
    rw [e]
    exact ⟨⟨by decide +kernel, by decide +kernel, 9370165, -29, by decide, by decide, by decide +kernel⟩, rfl⟩

/-- Errors, in units of the last place: of the factors. -/
def slack (f : Fmt) : ℚ := if f = .double then 37 / 4 else 1

theorem perRad_near {f : Fmt} (hf : f = .double ∨ f = .single) :
    |(perRad f : ℝ) - 180 / Real.pi| ≤ 180 / Real.pi * (slack f / 2 ^ f.prec) := by
  have h1 := Real.pi_gt_d20
  have h2 := Real.pi_lt_d20
  have h0 : 0 < Real.pi := Real.pi_pos
  have e : (perRad f : ℝ) - 180 / Real.pi = 180 / Real.pi * (perRad f * Real.pi / 180 - 1) := by field_simp
  rw [e, abs_mul, abs_of_nonneg (by positivity : 0 ≤ 180 / Real.pi)]
  refine mul_le_mul_of_nonneg_left ?_ (by positivity)
  rcases hf with rfl | rfl
  · rw [abs_le]; constructor <;> norm_num [perRad, slack, Fmt.double] <;> linarith
  · rw [abs_le]; constructor <;> norm_num [perRad, slack, Fmt.double, Fmt.single] <;> linarith

theorem perDeg_near {f : Fmt} (hf : f = .double ∨ f = .single) :
    |(perDeg f : ℝ) - Real.pi / 180| ≤ Real.pi / 180 * (slack f / 2 ^ f.prec) := by
  have h1 := Real.pi_gt_d20
  have h2 := Real.pi_lt_d20
  rcases hf with rfl | rfl
  · rw [abs_le]; constructor <;> norm_num [perDeg, slack, Fmt.double] <;> linarith
  · rw [abs_le]; constructor <;> norm_num [perDeg, slack, Fmt.double, Fmt.single] <;> linarith

/-- Multiplication by a factor that is nearly right. -/
theorem scaled {f : Fmt} (hf : f = .double ∨ f = .single) {c q : ℚ} {g : ℝ} (hg : 0 ≤ g)
    (hc : |(c : ℝ) - g| ≤ g * (slack f / 2 ^ f.prec)) :
    |(f.srnd (c * q) : ℝ) - q * g| ≤ (slack f + 2) * (|(q : ℝ)| * g) / 2 ^ f.prec + 2 ^ f.emin / 2 := by
  have h1 : |f.srnd (c * q) - c * q| ≤ |c * q| / 2 ^ f.prec + 2 ^ f.emin / 2 := srnd_err (f := f) (c * q)
  have h1' : |(f.srnd (c * q) : ℝ) - c * q| ≤ |(c : ℝ) * q| / 2 ^ f.prec + 2 ^ f.emin / 2 := by
    have h : ((|f.srnd (c * q) - c * q| : ℚ) : ℝ) ≤ ((|c * q| / 2 ^ f.prec + 2 ^ f.emin / 2 : ℚ) : ℝ) := by exact_mod_cast h1
    push_cast at h
    exact h
  obtain ⟨ε, hε⟩ : ∃ ε : ℝ, ε = 1 / 2 ^ f.prec := ⟨_, rfl⟩
  have hd : ∀ a : ℝ, a / 2 ^ f.prec = a * ε := fun a => by rw [hε]; ring
  have hs : 0 ≤ (slack f : ℝ) := by rcases hf with rfl | rfl <;> norm_num [slack, Fmt.double, Fmt.single]
  have hε0 : 0 ≤ ε := by rw [hε]; positivity
  have hsε : (slack f : ℝ) * ε ≤ 1 := by
    rw [hε]; rcases hf with rfl | rfl <;> norm_num [slack, Fmt.double, Fmt.single]
  rw [hd] at hc h1' ⊢
  have h2 : |(c : ℝ)| ≤ g + g * (slack f * ε) := by
    have := abs_sub_abs_le_abs_sub (c : ℝ) g
    rw [abs_of_nonneg hg] at this
    linarith
  have h3 : |(c : ℝ)| ≤ 2 * g := by nlinarith
  have h2' : |(c : ℝ)| * ε ≤ g * ε + g * (slack f * ε) * ε := by nlinarith
  have e : (f.srnd (c * q) : ℝ) - q * g = (f.srnd (c * q) - c * q) + (c - g) * q := by ring
  rw [e]
  refine (abs_add_le _ _).trans ?_
  rw [abs_mul] at h1'
  rw [abs_mul]
  have h4 : |(c : ℝ) - g| * |(q : ℝ)| ≤ g * (slack f * ε) * |(q : ℝ)| := mul_le_mul_of_nonneg_right hc (abs_nonneg _)
  have h5 : |(c : ℝ)| * |(q : ℝ)| * ε ≤ 2 * g * |(q : ℝ)| * ε := by gcongr
  linarith

theorem near_of {f : Fmt} (hf : f = .double ∨ f = .single) {c q : ℚ} {g : ℝ} (hg : 0 ≤ g)
    (hc : |(c : ℝ) - g| ≤ g * (slack f / 2 ^ f.prec)) :
    |(f.srnd (c * q) : ℝ) - q * g| ≤ (if f = .double then 12 else 3) * (|(q : ℝ)| * g) / 2 ^ f.prec + 2 ^ f.emin := by
  refine (scaled hf hg hc).trans ?_
  have h1 : (0 : ℝ) < 2 ^ f.emin := by positivity
  have h2 : (slack f : ℝ) + 2 ≤ if f = .double then 12 else 3 := by
    rcases hf with rfl | rfl <;> norm_num [slack, Fmt.double, Fmt.single]
  have h3 : ((slack f : ℝ) + 2) * (|(q : ℝ)| * g) / 2 ^ f.prec ≤ (if f = .double then 12 else 3) * (|(q : ℝ)| * g) / 2 ^ f.prec := by gcongr
  linarith

theorem perRad_le (f : Fmt) : 0 ≤ perRad f ∧ perRad f ≤ 60 := by unfold perRad; split <;> norm_num

theorem perDeg_le (f : Fmt) : 0 ≤ perDeg f ∧ perDeg f ≤ 1 := by unfold perDeg; split <;> norm_num

theorem radToDeg_stands {f : Fmt} (hf : f = .double ∨ f = .single) {x : Flt} {q : ℚ} (hx : Stands f x q) (h : 60 * |q| ≤ f.maxVal) :
    Stands f (radToDeg f x) (f.srnd (perRad f * q)) := by
  refine mul_stands hf (perRad_stands hf) hx (le_trans ?_ h)
  rw [abs_mul, abs_of_nonneg (perRad_le f).1]
  exact mul_le_mul_of_nonneg_right (perRad_le f).2 (abs_nonneg q)

theorem degToRad_stands {f : Fmt} (hf : f = .double ∨ f = .single) {x : Flt} {q : ℚ} (hx : Stands f x q) :
    Stands f (degToRad f x) (f.srnd (perDeg f * q)) := by
  refine mul_stands hf (perDeg_stands hf) hx (le_trans ?_ hx.abs_le)
  rw [abs_mul, abs_of_nonneg (perDeg_le f).1]
  exact mul_le_of_le_one_left (abs_nonneg q) (perDeg_le f).2

/-- Degrees from radians: the product with 180/π up to a few units of the last place (and, for the tiniest results, the spacing of
the format). -/
theorem C101_rad_to_deg (f : Fmt) (hf : f = .double ∨ f = .single) (x : Flt) (q : ℚ) (hx : Stands f x q) (h : 60 * |q| ≤ f.maxVal) :
    ∃ y : ℚ, Stands f (radToDeg f x) y ∧
      |(y : ℝ) - q * (180 / Real.pi)| ≤ (if f = .double then 12 else 3) * (|(q : ℝ)| * (180 / Real.pi)) / 2 ^ f.prec + 2 ^ f.emin :=
  ⟨_, radToDeg_stands hf hx h, near_of hf (by have := Real.pi_pos; positivity) (perRad_near hf)⟩

/-- Radians from degrees likewise, without overflow. -/
theorem C101_deg_to_rad (f : Fmt) (hf : f = .double ∨ f = .single) (x : Flt) (q : ℚ) (hx : Stands f x q) :
    ∃ y : ℚ, Stands f (degToRad f x) y ∧
      |(y : ℝ) - q * (Real.pi / 180)| ≤ (if f = .double then 12 else 3) * (|(q : ℝ)| * (Real.pi / 180)) / 2 ^ f.prec + 2 ^ f.emin :=
  ⟨_, degToRad_stands hf hx, near_of hf (by have := Real.pi_pos; positivity) (perDeg_near hf)⟩

/-- Both keep the order of angles. -/
theorem C101_monotone (f : Fmt) (hf : f = .double ∨ f = .single) (x y : Flt) (p q : ℚ) (hx : Stands f x p) (hy : Stands f y q) (h : p ≤ q) :
    AtMost (degToRad f x) (degToRad f y) ∧
    (60 * |p| ≤ f.maxVal → 60 * |q| ≤ f.maxVal → AtMost (radToDeg f x) (radToDeg f y)) := by
  have hp := prec_pos hf
  refine ⟨?_, fun h1 h2 => ?_⟩
  · rw [← le_iff, le_stands (degToRad_stands hf hx) (degToRad_stands hf hy)]
    exact Fmt.srnd_mono hp (mul_le_mul_of_nonneg_left h (perDeg_le f).1)
  · rw [← le_iff, le_stands (radToDeg_stands hf hx h1) (radToDeg_stands hf hy h2)]
    exact Fmt.srnd_mono hp (mul_le_mul_of_nonneg_left h (perRad_le f).1)

/-- That the conversions are inverse to each other is false. -/
theorem C101_round_trip_refuted : radToDeg .double (degToRad .double (.fin false 11)) ≠ .fin false 11 := by decide +kernel

theorem factors {f : Fmt} (hf : f = .double ∨ f = .single) : |perRad f * perDeg f - 1| ≤ 5 / 4 * (1 / 2 ^ f.prec) := by
  rcases hf with rfl | rfl <;> decide +kernel

theorem there_and_back {f : Fmt} (hf : f = .double ∨ f = .single) {c d q : ℚ} (hc : 0 ≤ c) (hd : 0 ≤ d) (hd' : d ≤ 60)
    (h : |c * d - 1| ≤ 5 / 4 * (1 / 2 ^ f.prec)) :
    |f.srnd (d * f.srnd (c * q)) - q| ≤ 4 * |q| / 2 ^ f.prec + 32 * 2 ^ f.emin := by
  have h1 := srnd_err (f := f) (c * q)
  have h2 := srnd_err (f := f) (d * f.srnd (c * q))
  have ht : (0 : ℚ) < 2 ^ f.emin := Fmt.pow_pos _
  obtain ⟨ε, hε⟩ : ∃ ε : ℚ, ε = 1 / 2 ^ f.prec := ⟨_, rfl⟩
  have hD : ∀ a : ℚ, a / 2 ^ f.prec = a * ε := fun a => by rw [hε]; ring
  have hε0 : 0 < ε := by rw [hε]; positivity
  have hε1 : ε ≤ 1 / 1000 := by
    rw [hε]; rcases hf with rfl | rfl <;> norm_num [Fmt.double, Fmt.single]
  rw [← hε] at h
  rw [hD] at h1 h2 ⊢
  generalize f.srnd (c * q) = y at *
  generalize f.srnd (d * y) = z at *
  generalize (2 : ℚ) ^ f.emin = t at *
  have hq := abs_nonneg q
  -- the product of the factors
  have hcd : c * d ≤ 1 + 5 / 4 * ε := by linarith [(abs_le.1 h).2]
  have hcd0 : 0 ≤ c * d := mul_nonneg hc hd
  have hcq : |c * q| = c * |q| := by rw [abs_mul, abs_of_nonneg hc]
  have hdy : |d * y| = d * |y| := by rw [abs_mul, abs_of_nonneg hd]
  rw [hcq] at h1
  rw [hdy] at h2
  have h3 : |d * y - d * (c * q)| ≤ c * d * |q| * ε + 30 * t := by
    rw [← mul_sub, abs_mul, abs_of_nonneg hd]
    have : d * |y - c * q| ≤ d * (c * |q| * ε + t / 2) := mul_le_mul_of_nonneg_left h1 hd
    nlinarith
  have h4 : d * |y| ≤ c * d * |q| + (c * d * |q| * ε + 30 * t) := by
    have h5 := abs_sub_abs_le_abs_sub (d * y) (d * (c * q))
    have h6 : |d * (c * q)| = c * d * |q| := by rw [abs_mul, abs_of_nonneg hd, hcq]; ring
    rw [hdy, h6] at h5
    linarith
  have h7 : |d * (c * q) - q| ≤ 5 / 4 * ε * |q| := by
    have e : d * (c * q) - q = (c * d - 1) * q := by ring
    rw [e, abs_mul]
    exact mul_le_mul_of_nonneg_right h hq
  have h8 : c * d * |q| ≤ (1 + 5 / 4 * ε) * |q| := mul_le_mul_of_nonneg_right hcd hq
  have hqε : 0 ≤ |q| * ε := by positivity
  have h9 : c * d * |q| * ε ≤ 101 / 100 * (|q| * ε) := by
    have : c * d * |q| * ε ≤ (1 + 5 / 4 * ε) * |q| * ε := mul_le_mul_of_nonneg_right h8 hε0.le
    nlinarith
  have h10 : d * |y| * ε ≤ (c * d * |q| + (c * d * |q| * ε + 30 * t)) * ε := mul_le_mul_of_nonneg_right h4 hε0.le
  have h11 : c * d * |q| * ε * ε ≤ 101 / 100 * (|q| * ε) * (1 / 1000) := by
    have h12 : 0 ≤ c * d * |q| * ε := by positivity
    exact mul_le_mul h9 hε1 hε0.le (by positivity)
  have h13 : t * ε ≤ t * (1 / 1000) := mul_le_mul_of_nonneg_left hε1 ht.le
  have e : z - q = (z - d * y) + (d * y - d * (c * q)) + (d * (c * q) - q) := by ring
  rw [e]
  refine (abs_add_three _ _ _).trans ?_
  nlinarith

/-- Converting there and back gives the angle up to a few units of the last place. (Missing: the very same.) -/
theorem C101_round_trip_partial (f : Fmt) (hf : f = .double ∨ f = .single) (x : Flt) (q : ℚ) (hx : Stands f x q) (h : 60 * |q| ≤ f.maxVal) :
    (∃ y, Stands f (degToRad f (radToDeg f x)) y ∧ |y - q| ≤ 4 * |q| / 2 ^ f.prec + 32 * 2 ^ f.emin) ∧
    (∃ y, Stands f (radToDeg f (degToRad f x)) y ∧ |y - q| ≤ 4 * |q| / 2 ^ f.prec + 32 * 2 ^ f.emin) := by
  have hp := prec_pos hf
  have hr := perRad_le f
  have hd := perDeg_le f
  refine ⟨⟨_, degToRad_stands hf (radToDeg_stands hf hx h), there_and_back hf hr.1 hd.1 (by linarith [hd.2]) (factors hf)⟩,
    ⟨_, radToDeg_stands hf (degToRad_stands hf hx) ?_, there_and_back hf hd.1 hr.1 hr.2 (by rw [mul_comm]; exact factors hf)⟩⟩
  refine le_trans (mul_le_mul_of_nonneg_left ?_ (by norm_num)) h
  rw [Fmt.abs_srnd, ← Fmt.srnd_nonneg (abs_nonneg _)]
  refine Fmt.srnd_le hp (isBinary_abs hx.binary) ?_
  rw [abs_mul, abs_of_nonneg hd.1]
  exact mul_le_of_le_one_left (abs_nonneg q) hd.2

example : Stands .double (.fin false 90) 90 ∧ 60 * |(90 : ℚ)| ≤ Fmt.double.maxVal ∧
    degToRad .double (radToDeg .double (.fin false 90)) = .fin false 90 :=
  ⟨by simpa using stands_double false (n := 90) (e := 0) (by norm_num) (by norm_num), by decide +kernel, by decide +kernel⟩

end Flut
