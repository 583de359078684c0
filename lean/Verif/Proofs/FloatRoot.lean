import Verif.Model.FloatVec
import Verif.Proofs.FloatLerp
import Mathlib.Analysis.Real.Sqrt

/-! # Square roots of floating-point numbers -/

namespace Flut

open Spec

/-! ## The nearest integer -/

theorem rootEven_near {x : ℚ} (h : 0 ≤ x) : |(rootEven x : ℝ) - √(x : ℝ)| ≤ 1 / 2 := by
  have hx : (0 : ℝ) ≤ x := by exact_mod_cast h
  have f1 : ((⌊x⌋₊ : ℕ) : ℝ) ≤ x := by exact_mod_cast Nat.floor_le h
  have f2 : (x : ℝ) < (⌊x⌋₊ : ℕ) + 1 := by exact_mod_cast Nat.lt_floor_add_one x
  have g1 : ((Nat.sqrt ⌊x⌋₊ : ℕ) : ℝ) * (Nat.sqrt ⌊x⌋₊ : ℕ) ≤ (⌊x⌋₊ : ℕ) := by exact_mod_cast Nat.sqrt_le ⌊x⌋₊
  have g2 : ((⌊x⌋₊ : ℕ) : ℝ) + 1 ≤ ((Nat.sqrt ⌊x⌋₊ : ℕ) + 1) * ((Nat.sqrt ⌊x⌋₊ : ℕ) + 1) := by
    have := Nat.lt_succ_sqrt ⌊x⌋₊
    exact_mod_cast this
  unfold rootEven
  simp only
  generalize hn : Nat.sqrt ⌊x⌋₊ = n at *
  have hn0 : (0 : ℝ) ≤ (n : ℝ) := Nat.cast_nonneg n
  have l1 : (n : ℝ) ≤ √(x : ℝ) := Real.le_sqrt_of_sq_le (by nlinarith)
  have l2 : √(x : ℝ) < n + 1 := by
    rw [Real.sqrt_lt' (by linarith)]; nlinarith
  have down : x ≤ n * n + n + 1 / 4 → |(n : ℝ) - √(x : ℝ)| ≤ 1 / 2 := by
    intro c
    have c : (x : ℝ) ≤ ((n * n + n + 1 / 4 : ℚ) : ℝ) := by exact_mod_cast c
    push_cast at c
    have : √(x : ℝ) ≤ n + 1 / 2 := by
      exact Real.sqrt_le_iff.2 ⟨by linarith, by nlinarith⟩
    rw [abs_of_nonpos (by linarith)]; linarith
  have up : n * n + n + 1 / 4 ≤ x → |((n + 1 : ℕ) : ℝ) - √(x : ℝ)| ≤ 1 / 2 := by
    intro c
    have c : ((n * n + n + 1 / 4 : ℚ) : ℝ) ≤ x := by exact_mod_cast c
    push_cast at c
    have : n + 1 / 2 ≤ √(x : ℝ) := Real.le_sqrt_of_sq_le (by nlinarith)
    push_cast
    rw [abs_of_nonneg (by linarith)]; linarith
  split_ifs with c1 c2 c3
  · exact down c1.le
  · exact up c2.le
  · exact down (not_lt.1 c2)
  · exact up (not_lt.1 c1)

theorem rootEven_nearest {x : ℚ} (h : 0 ≤ x) (n : Int) : |(rootEven x : ℝ) - √(x : ℝ)| ≤ |(n : ℝ) - √(x : ℝ)| := by
  by_cases hn : n = rootEven x
  · rw [hn]; simp
  have h1 := rootEven_near h
  have h2 : (1 : ℝ) ≤ |(n : ℝ) - rootEven x| := by
    have : (1 : Int) ≤ |n - rootEven x| := Int.one_le_abs (sub_ne_zero.2 hn)
    exact_mod_cast this
  have h3 := abs_sub_le (n : ℝ) (√(x : ℝ)) (rootEven x)
  rw [abs_sub_comm (√(x : ℝ))] at h3
  linarith

theorem rootEven_le {x : ℚ} {n : Nat} (h : 0 ≤ x) (hn : √(x : ℝ) ≤ n) : rootEven x ≤ n := by
  by_contra hc
  have h1 : (n : ℝ) + 1 ≤ rootEven x := by exact_mod_cast not_le.1 hc
  have h2 := (abs_le.1 (rootEven_near h)).2
  linarith

/-- Of two nearest integers the even one is taken. -/
theorem rootEven_tie {x : ℚ} (h : 0 ≤ x) {n : Int} (hn : n ≠ rootEven x) (ht : |(n : ℝ) - √(x : ℝ)| = |(rootEven x : ℝ) - √(x : ℝ)|) :
    rootEven x % 2 = 0 := by
  have h1 := rootEven_near h
  have h2 : (1 : ℝ) ≤ |(n : ℝ) - rootEven x| := by
    have : (1 : Int) ≤ |n - rootEven x| := Int.one_le_abs (sub_ne_zero.2 hn)
    exact_mod_cast this
  have h3 := abs_sub_le (n : ℝ) (√(x : ℝ)) (rootEven x)
  rw [abs_sub_comm (√(x : ℝ))] at h3
  have h4 : |(rootEven x : ℝ) - √(x : ℝ)| = 1 / 2 := by linarith
  have hx : (0 : ℝ) ≤ x := by exact_mod_cast h
  have hs := Real.sq_sqrt hx
  have f1 : ((⌊x⌋₊ : ℕ) : ℝ) ≤ x := by exact_mod_cast Nat.floor_le h
  have g1 : ((Nat.sqrt ⌊x⌋₊ : ℕ) : ℝ) * (Nat.sqrt ⌊x⌋₊ : ℕ) ≤ (⌊x⌋₊ : ℕ) := by exact_mod_cast Nat.sqrt_le ⌊x⌋₊
  have f2 : (x : ℝ) < (⌊x⌋₊ : ℕ) + 1 := by exact_mod_cast Nat.lt_floor_add_one x
  have g2 : ((⌊x⌋₊ : ℕ) : ℝ) + 1 ≤ ((Nat.sqrt ⌊x⌋₊ : ℕ) + 1) * ((Nat.sqrt ⌊x⌋₊ : ℕ) + 1) := by
    have := Nat.lt_succ_sqrt ⌊x⌋₊
    exact_mod_cast this
  revert h4
  unfold rootEven
  simp only
  generalize hn : Nat.sqrt ⌊x⌋₊ = n at *
  have hn0 : (0 : ℝ) ≤ (n : ℝ) := Nat.cast_nonneg n
  have l1 : (n : ℝ) ≤ √(x : ℝ) := Real.le_sqrt_of_sq_le (by nlinarith)
  have l2 : √(x : ℝ) < n + 1 := by
    rw [Real.sqrt_lt' (by linarith)]; nlinarith
  split_ifs with c1 c2 c3
  · intro h4
    rw [abs_of_nonpos (by linarith)] at h4
    have e : √(x : ℝ) = n + 1 / 2 := by linarith
    have c1 : (x : ℝ) < ((n * n + n + 1 / 4 : ℚ) : ℝ) := by exact_mod_cast c1
    push_cast at c1
    rw [e] at hs; nlinarith
  · intro h4
    push_cast at h4
    rw [abs_of_nonneg (by linarith)] at h4
    have e : √(x : ℝ) = n + 1 / 2 := by linarith
    have c2 : ((n * n + n + 1 / 4 : ℚ) : ℝ) < x := by exact_mod_cast c2
    push_cast at c2
    rw [e] at hs; nlinarith
  · intro _; exact c3
  · intro _; omega

/-! ## Rounding to a format -/

namespace Fmt
variable (f : Fmt)

theorem pow_pos_real (e : Int) : (0 : ℝ) < 2 ^ e := zpow_pos (by norm_num) e

/-- A square root in other units. -/
theorem root_scale (q : ℚ) (e : Int) : √(q : ℝ) = √((q / 4 ^ e : ℚ) : ℝ) * 2 ^ e := by
  have h4 : ((4 : ℝ) ^ e) = 2 ^ e * 2 ^ e := by
    rw [← mul_zpow]; norm_num
  have : (q : ℝ) = ((q / 4 ^ e : ℚ) : ℝ) * (2 ^ e * 2 ^ e) := by
    push_cast
    rw [← h4]; field_simp
  rw [this, Real.sqrt_mul' _ (mul_self_nonneg _), Real.sqrt_mul_self (pow_pos_real e).le]

theorem div_nonneg' {q : ℚ} (h : 0 ≤ q) (e : Int) : 0 ≤ q / 4 ^ e := div_nonneg h (by positivity)

theorem rndRoot_near {q : ℚ} (h : 0 ≤ q) : |(f.rndRoot q : ℝ) - √(q : ℝ)| ≤ 2 ^ f.rootExp q / 2 := by
  have hp := pow_pos_real (f.rootExp q)
  have h1 := rootEven_near (div_nonneg' h (f.rootExp q))
  rw [root_scale q (f.rootExp q)]
  unfold rndRoot
  push_cast [-Rat.cast_div] at h1 ⊢
  rw [← sub_mul, abs_mul, abs_of_pos hp]
  nlinarith

theorem rndRoot_nonneg (q : ℚ) : 0 ≤ f.rndRoot q := mul_nonneg (Nat.cast_nonneg _) (pow_pos _).le

theorem rndRoot_multiple {q : ℚ} (h : 0 ≤ q) (n : Int) :
    |(f.rndRoot q : ℝ) - √(q : ℝ)| ≤ |n * 2 ^ f.rootExp q - √(q : ℝ)| := by
  have h1 := rootEven_nearest (div_nonneg' h (f.rootExp q)) n
  rw [root_scale q (f.rootExp q)]
  unfold rndRoot
  push_cast [-Rat.cast_div]
  rw [← sub_mul, ← sub_mul, abs_mul, abs_mul]
  exact mul_le_mul_of_nonneg_right h1 (abs_nonneg _)

/-- Roots of the size of the one of `q` lie between these powers of two. -/
theorem root_lt_size (q : ℚ) : √(q : ℝ) < 2 ^ ((f.prec : Int) + f.rootExp q) := by
  rw [Real.sqrt_lt' (pow_pos_real _)]
  have h1 := Int.lt_zpow_succ_log_self (b := 2) (by norm_num) q
  have h2 : Int.log 2 q + 1 ≤ ((f.prec : Int) + f.rootExp q) * 2 := by
    unfold rootExp; have := le_max_right f.emin (Int.log 2 q / 2 - (f.prec - 1)); omega
  have h3 : q < 2 ^ (((f.prec : Int) + f.rootExp q) * 2) := by
    refine lt_of_lt_of_le h1 ?_
    push_cast
    exact zpow_le_zpow_right₀ (by norm_num) h2
  have h4 : ((q : ℚ) : ℝ) < ((2 ^ (((f.prec : Int) + f.rootExp q) * 2) : ℚ) : ℝ) := by exact_mod_cast h3
  push_cast at h4
  rwa [zpow_mul, zpow_ofNat] at h4

theorem root_size_le {q : ℚ} (h : 0 < q) (he : f.emin < f.rootExp q) : (2 : ℝ) ^ ((f.prec : Int) - 1 + f.rootExp q) ≤ √(q : ℝ) := by
  apply Real.le_sqrt_of_sq_le
  have h1 := Int.zpow_log_le_self (b := 2) (by norm_num) h
  have h2 : ((f.prec : Int) - 1 + f.rootExp q) * 2 ≤ Int.log 2 q := by
    unfold rootExp at *; omega
  have h3 : (2 : ℚ) ^ (((f.prec : Int) - 1 + f.rootExp q) * 2) ≤ q := by
    refine le_trans (zpow_le_zpow_right₀ (by norm_num) h2) ?_
    exact_mod_cast h1
  have h4 : ((2 ^ (((f.prec : Int) - 1 + f.rootExp q) * 2) : ℚ) : ℝ) ≤ ((q : ℚ) : ℝ) := by exact_mod_cast h3
  push_cast at h4
  rwa [zpow_mul, zpow_ofNat] at h4

theorem rootEven_size {q : ℚ} (h : 0 ≤ q) : rootEven (q / 4 ^ f.rootExp q) ≤ 2 ^ f.prec := by
  apply rootEven_le (div_nonneg' h _)
  have h1 := f.root_lt_size q
  rw [root_scale q (f.rootExp q), zpow_add₀ (by norm_num), zpow_natCast] at h1
  have := lt_of_mul_lt_mul_right h1 (pow_pos_real _).le
  push_cast [-Rat.cast_div]
  exact this.le

theorem rndRoot_binary {q : ℚ} (hp : 1 ≤ f.prec) (h : 0 ≤ q) : IsBinary f.prec f.emin (f.rndRoot q) := by
  have hle := f.rootEven_size h
  have he : f.emin ≤ f.rootExp q := le_max_left _ _
  unfold rndRoot
  generalize rootEven (q / 4 ^ f.rootExp q) = n at *
  rcases hle.lt_or_eq with hlt | heq
  · refine ⟨n, f.rootExp q, ?_, he, by push_cast; rfl⟩
    rw [abs_of_nonneg (by positivity)]; exact_mod_cast hlt
  · refine ⟨2 ^ (f.prec - 1), f.rootExp q + 1, ?_, by omega, ?_⟩
    · rw [abs_of_nonneg (by positivity)]
      exact pow_lt_pow_right₀ (by norm_num) (by omega)
    · rw [heq, zpow_add₀ (by norm_num)]
      push_cast
      obtain ⟨k, hk⟩ := Nat.exists_eq_add_of_le' hp
      rw [hk, Nat.add_sub_cancel, pow_succ]
      ring

theorem rndRoot_zero : f.rndRoot 0 = 0 := by
  have : rootEven 0 = 0 := by
    have := rootEven_le (x := 0) (n := 0) le_rfl (by simp)
    omega
  simp [rndRoot, this]

/-- No number of the format is nearer to the root. -/
theorem rndRoot_nearest {q : ℚ} (h : 0 ≤ q) {z : ℚ} (hz : IsBinary f.prec f.emin z) :
    |(f.rndRoot q : ℝ) - √(q : ℝ)| ≤ |(z : ℝ) - √(q : ℝ)| := by
  by_cases hs : 2 ^ ((f.prec : Int) - 1 + f.rootExp q) ≤ |z| ∨ f.rootExp q ≤ f.emin
  · obtain ⟨n, rfl⟩ := binary_multiple hz hs
    have := f.rndRoot_multiple h n
    push_cast; exact this
  · by_contra hne
    have hs1 : |z| < 2 ^ ((f.prec : Int) - 1 + f.rootExp q) := not_le.1 fun h => hs (.inl h)
    have hs2 : f.emin < f.rootExp q := not_le.1 fun h => hs (.inr h)
    have hq : 0 < q := by
      rcases h.lt_or_eq with h | h
      · exact h
      · subst h
        refine absurd ?_ hne
        rw [f.rndRoot_zero]
        simp
    have h1 := f.root_size_le hq hs2
    have hs1' : |(z : ℝ)| < 2 ^ ((f.prec : Int) - 1 + f.rootExp q) := by
      have : ((|z| : ℚ) : ℝ) < ((2 ^ ((f.prec : Int) - 1 + f.rootExp q) : ℚ) : ℝ) := by exact_mod_cast hs1
      push_cast at this
      exact this
    by_cases hp : 1 ≤ f.prec
    · have h2 := f.rndRoot_multiple h (2 ^ (f.prec - 1))
      have e : ((2 ^ (f.prec - 1) : Int) : ℝ) * 2 ^ f.rootExp q = 2 ^ ((f.prec : Int) - 1 + f.rootExp q) := by
        push_cast
        rw [← zpow_natCast, ← zpow_add₀ (by norm_num)]
        congr 1; omega
      rw [e] at h2
      apply hne
      refine h2.trans ?_
      have h3 := le_abs_self (z : ℝ)
      rw [abs_of_nonpos (by linarith), abs_of_nonpos (by linarith)]
      linarith
    · obtain ⟨m, k, hm, _, rfl⟩ := hz
      have : m = 0 := by
        have : f.prec = 0 := by omega
        rw [this, pow_zero] at hm
        exact abs_eq_zero.1 (by have := abs_nonneg m; omega)
      subst this
      have h2 := f.rndRoot_multiple h 0
      apply hne
      simpa using h2

/-- The root is rounded with small relative error. -/
theorem rndRoot_rel (hf : f = .double ∨ f = .single) {q : ℚ} (h : 2 ^ f.emin ≤ q) :
    |(f.rndRoot q : ℝ) - √(q : ℝ)| ≤ √(q : ℝ) / 2 ^ f.prec := by
  have hq : 0 < q := lt_of_lt_of_le (pow_pos _) h
  have he : f.emin < f.rootExp q := by
    have : f.emin ≤ Int.log 2 q := by
      have := (Int.zpow_le_iff_le_log (b := 2) (by norm_num) hq).1 (by exact_mod_cast h)
      exact this
    unfold rootExp
    rcases hf with rfl | rfl <;> simp only [Fmt.double, Fmt.single] at * <;> push_cast <;> omega
  refine (f.rndRoot_near hq.le).trans ?_
  have h1 := f.root_size_le hq he
  rw [le_div_iff₀ (by positivity)]
  refine le_trans (le_of_eq ?_) h1
  rw [sub_add_eq_add_sub, zpow_sub_one₀ (by norm_num), zpow_add₀ (by norm_num), zpow_natCast]
  ring

end Fmt

/-- What `sqrt` gives for a positive number. -/
theorem sqrt_stands {f : Fmt} (hf : f = .double ∨ f = .single) {x : Flt} {q : ℚ} (hx : Stands f x q) (h : 0 < q) :
    f.sqrt x = .fin false (f.rndRoot q) ∧ Stands f (f.sqrt x) (f.rndRoot q) := by
  obtain ⟨s, m, rfl, rfl⟩ := hx.fin
  obtain ⟨h0, hmax, hbin⟩ := hx.1
  cases s with
  | true => simp [Flt.val] at h; linarith
  | false =>
    simp only [Flt.val, Bool.false_eq_true, if_false] at *
    have e : f.sqrt (.fin false m) = .fin false (f.rndRoot m) := by
      simp [Fmt.sqrt, h.ne']
    refine ⟨e, ?_⟩
    rw [e]
    refine ⟨⟨f.rndRoot_nonneg m, ?_, f.rndRoot_binary (prec_pos hf) h.le⟩, rfl⟩
    by_contra hc
    have hM : (1 : ℚ) ≤ f.maxVal := by rcases hf with rfl | rfl <;> decide +kernel
    have h1 := f.rndRoot_nearest h0 (maxVal_binary hf)
    have h2 : √(m : ℝ) ≤ f.maxVal := by
      have a1 : (m : ℝ) ≤ f.maxVal := by exact_mod_cast hmax
      have a2 : (1 : ℝ) ≤ f.maxVal := by exact_mod_cast hM
      exact Real.sqrt_le_iff.2 ⟨by linarith, by nlinarith⟩
    have h3 : (f.maxVal : ℝ) < f.rndRoot m := by exact_mod_cast not_le.1 hc
    rw [abs_of_nonneg (by linarith), abs_of_nonneg (by linarith)] at h1
    linarith

theorem sqrt_zero (f : Fmt) (s : Bool) : f.sqrt (.fin s 0) = .fin s 0 := by simp [Fmt.sqrt]

end Flut
