import Verif.Model.FloatPiecewise
import Verif.Props.FloatInterp
import Verif.Props.FloatPoly
import Verif.Spec.FloatPiecewise

/-! # Property theorems: piecewise linear functions in floating-point arithmetic (C122) -/

namespace Flut

open Spec FloatMath

theorem piecewise_close {n : Nat} (hn : 0 < n) {d : Nat → ℚ} {M : ℚ} (hd : ∀ i ≤ n, |d i| ≤ M) {t t' : ℚ} (h0 : 0 ≤ t) (h1 : t ≤ t') (h2 : t' - t < 1) :
    |piecewise n d t' - piecewise n d t| ≤ 2 * M * (t' - t) := by
  have diff : ∀ i, i + 1 ≤ n → |d (i + 1) - d i| ≤ 2 * M := by
    intro i hi
    have := abs_sub (d (i + 1)) (d i)
    linarith [hd (i + 1) hi, hd i (by omega)]
  have f0 : 0 ≤ ⌊t⌋ := Int.floor_nonneg.2 h0
  have f1 : ⌊t⌋ ≤ ⌊t'⌋ := Int.floor_mono h1
  have f2 : ⌊t'⌋ ≤ ⌊t⌋ + 1 := by
    have a1 := Int.lt_floor_add_one t
    have a2 := Int.floor_le t'
    have : (⌊t'⌋ : ℚ) < ((⌊t⌋ + 2 : Int) : ℚ) := by push_cast; linarith
    have : ⌊t'⌋ < ⌊t⌋ + 2 := by exact_mod_cast this
    omega
  unfold piecewise
  simp only
  obtain ⟨k, hk⟩ : ∃ k : Nat, ⌊t⌋ = k := ⟨⌊t⌋.toNat, (Int.toNat_of_nonneg f0).symm⟩
  obtain ⟨k', hk'⟩ : ∃ k : Nat, ⌊t'⌋ = k := ⟨⌊t'⌋.toNat, (Int.toNat_of_nonneg (f0.trans f1)).symm⟩
  rw [hk, hk', Int.toNat_natCast, Int.toNat_natCast]
  rw [hk, hk'] at f1 f2
  rcases Nat.lt_or_ge (min k (n - 1)) (min k' (n - 1)) with hlt | hge
  · have e1 : min k (n - 1) = k := by omega
    have e2 : min k' (n - 1) = k + 1 := by omega
    have e3 : k' = k + 1 := by omega
    rw [e1, e2]
    have a1 : (k' : ℚ) ≤ t' := by have := Int.floor_le t'; rw [hk'] at this; simpa using this
    have a2 : t < k + 1 := by have := Int.lt_floor_add_one t; rw [hk] at this; simpa using this
    rw [e3] at a1
    push_cast at a1 ⊢
    have b1 := diff k (by omega)
    have b2 := diff (k + 1) (by omega)
    have e : d (k + 1) + (t' - (k + 1)) * (d (k + 1 + 1) - d (k + 1)) - (d k + (t - k) * (d (k + 1) - d k)) =
        (t' - (k + 1)) * (d (k + 1 + 1) - d (k + 1)) + (k + 1 - t) * (d (k + 1) - d k) := by ring
    rw [e]
    refine (abs_add_le _ _).trans ?_
    rw [abs_mul, abs_mul, abs_of_nonneg (by linarith : 0 ≤ t' - (k + 1)), abs_of_nonneg (by linarith : 0 ≤ (k : ℚ) + 1 - t)]
    have c1 := mul_le_mul_of_nonneg_left b1 (by linarith : 0 ≤ (k : ℚ) + 1 - t)
    have c2 := mul_le_mul_of_nonneg_left b2 (by linarith : 0 ≤ t' - ((k : ℚ) + 1))
    linarith
  · have e1 : min k' (n - 1) = min k (n - 1) := by omega
    rw [e1]
    have b1 := diff (min k (n - 1)) (by omega)
    have e : d (min k (n - 1)) + (t' - (min k (n - 1) : Nat)) * (d (min k (n - 1) + 1) - d (min k (n - 1))) -
        (d (min k (n - 1)) + (t - (min k (n - 1) : Nat)) * (d (min k (n - 1) + 1) - d (min k (n - 1)))) =
        (t' - t) * (d (min k (n - 1) + 1) - d (min k (n - 1))) := by ring
    rw [e, abs_mul, abs_of_nonneg (by linarith : 0 ≤ t' - t)]
    have := mul_le_mul_of_nonneg_left b1 (by linarith : 0 ≤ t' - t)
    linarith

theorem piecewise_near {n : Nat} (hn : 0 < n) {d : Nat → ℚ} {M e : ℚ} (hd : ∀ i ≤ n, |d i| ≤ M) {t t' : ℚ} (h0 : 0 ≤ t) (h0' : 0 ≤ t')
    (h : |t' - t| ≤ e) (he : e < 1) : |piecewise n d t' - piecewise n d t| ≤ 2 * M * e := by
  have hM : 0 ≤ M := (abs_nonneg _).trans (hd 0 (by omega))
  have h' := abs_le.1 h
  rcases le_total t t' with hle | hle
  · refine (piecewise_close hn hd h0 hle (by linarith)).trans ?_
    exact mul_le_mul_of_nonneg_left (by linarith) (by linarith)
  · rw [abs_sub_comm]
    refine (piecewise_close hn hd h0' hle (by linarith)).trans ?_
    exact mul_le_mul_of_nonneg_left (by linarith) (by linarith)

/-- The rounding error of `( 1 - w ) * a + w * b` for a weight between 0 and 2. -/
theorem lerp_wide {f : Fmt} (hf : f = .double ∨ f = .single) {w x y : Flt} {q a b M : ℚ} (hw : Stands f w q)
    (h0 : 0 ≤ q) (h1 : q ≤ 2) (hx : Stands f x a) (hy : Stands f y b) (ha : |a| ≤ M) (hb : |b| ≤ M)
    (hM : 8 * M ≤ f.maxVal) : ∃ v, Stands f (lerp f w x y) v ∧
      |v - ((1 - q) * a + q * b)| ≤ 8 * M / 2 ^ f.prec + 2 * 2 ^ f.emin := by
  have hp := prec_pos hf
  obtain ⟨k1, k2, k3, k4⟩ := fmt_consts hf
  have hM0 : 0 ≤ M := (abs_nonneg a).trans ha
  obtain ⟨u, hu⟩ : ∃ u : ℚ, u = 1 / 2 ^ f.prec := ⟨_, rfl⟩
  obtain ⟨n, hn⟩ : ∃ n : ℚ, n = 2 ^ f.emin := ⟨_, rfl⟩
  have hu0 : 0 < u := by rw [hu]; positivity
  have hu1 : u ≤ 1 / 2 ^ 24 := by
    rw [hu]
    exact one_div_le_one_div_of_le (by norm_num) k1
  have hdiv : ∀ z : ℚ, z / 2 ^ f.prec = z * u := by intro z; rw [hu]; ring
  rw [← hn] at k2 k3
  have hu2 : u ≤ 1 / 1000 := hu1.trans (by norm_num)
  have hn1 : n ≤ 1 / 1000 := k3.trans (by norm_num)
  have hmax : 1000 ≤ f.maxVal := le_trans (by norm_num) k4
  have hq1 : |1 - q| ≤ 1 := abs_le.2 ⟨by linarith, by linarith⟩
  have c1 := sub_stands hf (one_stands hf) hw (by linarith)
  have c2 : |f.srnd (1 - q) - (1 - q)| ≤ u := by
    have := srnd_rel (f := f) hp (q := 1 - q) (by
      rw [sub_eq_add_neg]
      exact multiple_add (binary_mul (one_stands hf).binary) (multiple_neg (binary_mul hw.binary)))
    rw [hdiv] at this
    have h3 := mul_le_mul_of_nonneg_right hq1 hu0.le
    linarith
  generalize f.srnd (1 - q) = c at c1 c2
  have hc : |c| ≤ 1001 / 1000 := by
    have := abs_sub_abs_le_abs_sub c (1 - q)
    linarith
  have hca : |c * a| ≤ 1001 / 1000 * M := by
    rw [abs_mul]
    exact mul_le_mul hc ha (abs_nonneg _) (by norm_num)
  have hqb : |q * b| ≤ 2 * M := by
    rw [abs_mul, abs_of_nonneg h0]
    exact mul_le_mul h1 hb (abs_nonneg _) (by norm_num)
  have p1 := mul_stands hf c1 hx (by linarith)
  have p2 := mul_stands hf hw hy (by linarith)
  have e1 := srnd_err (f := f) (c * a)
  have e2 := srnd_err (f := f) (q * b)
  generalize f.srnd (c * a) = A at p1 e1
  generalize f.srnd (q * b) = B at p2 e2
  rw [hdiv, ← hn] at e1 e2
  have s2 : |f.srnd (A + B) - (A + B)| ≤ |A + B| * u := by
    have := srnd_rel (f := f) hp (q := A + B) (multiple_add (binary_mul p1.binary) (binary_mul p2.binary))
    rwa [hdiv] at this
  have d1 : |c * a - (1 - q) * a| ≤ u * M := by
    rw [← sub_mul, abs_mul]
    exact mul_le_mul c2 ha (abs_nonneg _) hu0.le
  have d2 := mul_le_mul_of_nonneg_right hca hu0.le
  have d3 := mul_le_mul_of_nonneg_right hqb hu0.le
  have huM : 0 ≤ u * M := by positivity
  have D : |A + B - ((1 - q) * a + q * b)| ≤ 4002 / 1000 * (u * M) + n := by
    have e : A + B - ((1 - q) * a + q * b) = (A - c * a) + (c * a - (1 - q) * a) + (B - q * b) := by ring
    rw [e]
    have := abs_add_three (A - c * a) (c * a - (1 - q) * a) (B - q * b)
    linarith
  have hex : |(1 - q) * a + q * b| ≤ 3 * M := by
    have h3 := abs_add_le ((1 - q) * a) (q * b)
    have h4 : |(1 - q) * a| ≤ 1 * M := by rw [abs_mul]; exact mul_le_mul hq1 ha (abs_nonneg _) (by norm_num)
    linarith
  have huM2 : u * M ≤ 1 / 1000 * M := mul_le_mul_of_nonneg_right hu2 hM0
  have hAB : |A + B| ≤ 3 * M + (4002 / 1000 * (u * M) + n) := by
    have := abs_sub_abs_le_abs_sub (A + B) ((1 - q) * a + q * b)
    linarith
  refine ⟨_, add_stands hf p1 p2 (by linarith), ?_⟩
  rw [hdiv, ← hn]
  have e : f.srnd (A + B) - ((1 - q) * a + q * b) = (f.srnd (A + B) - (A + B)) + (A + B - ((1 - q) * a + q * b)) := by ring
  rw [e]
  have t := abs_add_le (f.srnd (A + B) - (A + B)) (A + B - ((1 - q) * a + q * b))
  have t2 := mul_le_mul_of_nonneg_right hAB hu0.le
  have t3 : (3 * M + (4002 / 1000 * (u * M) + n)) * u = 3 * (u * M) + 4002 / 1000 * (u * (u * M)) + u * n := by ring
  have t4 : u * (u * M) ≤ 1 / 1000 * (u * M) := mul_le_mul_of_nonneg_right hu2 huM
  have t5 : u * n ≤ 1 / 1000 * n := mul_le_mul_of_nonneg_right hu2 k2.le
  linarith

/-- Subtracting a smaller whole number from a number that is not too large is exact. -/
theorem sub_whole_binary {f : Fmt} (hf : f = .double ∨ f = .single) {t : ℚ} (ht : IsBinary f.prec f.emin t) {k : Nat} (h : (k : ℚ) ≤ t)
    (ht' : t < 2 ^ f.prec) : IsBinary f.prec f.emin (t - k) := by
  obtain ⟨m, e, hm, he, rfl⟩ := ht
  have hk0 : (0 : ℚ) ≤ k := by positivity
  rcases le_total 0 e with h0 | h0
  · obtain ⟨j, rfl⟩ := Int.eq_ofNat_of_zero_le h0
    refine ⟨m * 2 ^ j - k, 0, ?_, by rcases hf with rfl | rfl <;> decide, ?_⟩
    · have h1 : (0 : ℚ) ≤ ((m * 2 ^ j - k : Int) : ℚ) := by push_cast; simp only [zpow_natCast] at h; linarith
      have h2 : ((m * 2 ^ j - k : Int) : ℚ) < 2 ^ f.prec := by push_cast; simp only [zpow_natCast] at ht'; linarith
      have h3 : (0 : Int) ≤ m * 2 ^ j - k := by exact_mod_cast h1
      rw [abs_of_nonneg h3]
      exact_mod_cast h2
    · push_cast
      simp
  · obtain ⟨j, hj⟩ := Int.eq_ofNat_of_zero_le (by omega : 0 ≤ -e)
    have hpow : (2 : ℚ) ^ j * 2 ^ e = 1 := by
      rw [← zpow_natCast, ← zpow_add₀ (by norm_num), show (j : Int) + e = 0 by omega, zpow_zero]
    have hpos : (0 : ℚ) < 2 ^ e := by positivity
    have e1 : (m : ℚ) * 2 ^ e - k = ((m - k * 2 ^ j : Int) : ℚ) * 2 ^ e := by
      push_cast
      rw [sub_mul, mul_assoc (k : ℚ), hpow, mul_one]
    refine ⟨m - k * 2 ^ j, e, ?_, he, e1⟩
    have h1 : (0 : ℚ) ≤ ((m - k * 2 ^ j : Int) : ℚ) := by
      have : 0 ≤ ((m - k * 2 ^ j : Int) : ℚ) * 2 ^ e := by rw [← e1]; linarith
      exact nonneg_of_mul_nonneg_left this hpos
    have h3 : (0 : Int) ≤ m - k * 2 ^ j := by exact_mod_cast h1
    rw [abs_of_nonneg h3]
    have h4 : (0 : Int) ≤ k * 2 ^ j := by positivity
    have := le_abs_self m
    omega

/-- What `operator()` does with a computed index that stands for `t`. -/
theorem gridEval_eq {f : Fmt} (hf : f = .double ∨ f = .single) {xMin xMax x : Flt} {n : Nat} {fn : Flt → Flt} (hn : 0 < n) (hn' : n < 2 ^ 31)
    (hp : (n : ℚ) * 16 ≤ 2 ^ f.prec) {t : ℚ} (ht : Stands f (f.div (f.sub x xMin) (gridStep f xMin xMax n)) t) (h0 : 0 ≤ t) (h1 : t < n + 1)
    : ∃ w, gridEval f (gridNew f xMin xMax n fn) x = .ok (lerp f w (fn (gridNode f xMin xMax n (min ⌊t⌋.toNat (n - 1))))
        (fn (gridNode f xMin xMax n (min ⌊t⌋.toNat (n - 1) + 1)))) ∧ Stands f w (t - (min ⌊t⌋.toNat (n - 1) : Nat)) := by
  obtain ⟨k, hk⟩ : ∃ k : Nat, ⌊t⌋ = k := ⟨⌊t⌋.toNat, (Int.toNat_of_nonneg (Int.floor_nonneg.2 h0)).symm⟩
  have hkt : (k : ℚ) ≤ t := by have := Int.floor_le t; rw [hk] at this; simpa using this
  have hkn : k < n + 1 := by
    have : (k : ℚ) < ((n + 1 : Nat) : ℚ) := by push_cast; linarith
    exact_mod_cast this
  have hc : clampInt (k : Int) 0 ((n : Int) + 1 - 2) = (min k (n - 1) : Nat) := by
    unfold clampInt
    rw [if_neg (by omega)]
    split <;> omega
  rw [hk, Int.toNat_natCast]
  generalize hj : min k (n - 1) = j at *
  have hjk : (j : ℚ) ≤ t := by
    have : (j : ℚ) ≤ k := by exact_mod_cast (by omega : j ≤ k)
    linarith
  have hjn : (j : ℚ) ≤ n := by exact_mod_cast (by omega : j ≤ n)
  have hn1 : (1 : ℚ) ≤ n := by exact_mod_cast hn
  have hj0 : (0 : ℚ) ≤ j := by positivity
  have hjm : |(j : ℚ)| ≤ f.maxVal := by
    rw [abs_of_nonneg hj0]; have := ht.abs_le; rw [abs_of_nonneg h0] at this; linarith
  have r1 : Stands f (f.ofRat ((j : Int) : ℚ)) j := by
    rw [Int.cast_natCast]
    have := result_stands hf false (q := (j : ℚ)) hjm
    rw [Fmt.srnd_self (prec_pos hf)] at this
    · exact this
    · have := int_binary hf (n := (j : Int)) (by
        have : ((j : Int) : ℚ) < 2 ^ f.prec := by push_cast; linarith
        rw [abs_of_nonneg (by omega)]
        exact_mod_cast this)
      simpa using this
  have hb := sub_whole_binary hf ht.binary hjk (by linarith)
  have hsub : 0 ≤ t - j := by linarith
  have hmax := ht.abs_le
  rw [abs_of_nonneg h0] at hmax
  have r2 := sub_stands hf ht r1 (by rw [abs_of_nonneg hsub]; linarith)
  rw [Fmt.srnd_self (prec_pos hf) hb] at r2
  refine ⟨_, ?_, r2⟩
  obtain ⟨s, m, e, hm⟩ := ht.fin
  have hv : (if s then -m else m) = t := hm
  have hb' : (gridNew f xMin xMax n fn).base = xMin := rfl
  have hs' : (gridNew f xMin xMax n fn).step = gridStep f xMin xMax n := rfl
  have hp' : (gridNew f xMin xMax n fn).points = (n : Int) + 1 := rfl
  have hd' : (gridNew f xMin xMax n fn).data = (List.range (n + 1)).map fun i => fn (gridNode f xMin xMax n i) := rfl
  unfold gridEval
  rw [hb', hs', hp', hd', e]
  simp only [hv, hk, hc]
  rw [if_neg (by omega), if_neg (by omega)]
  have g1 : ((List.range (n + 1)).map fun i => fn (gridNode f xMin xMax n i))[((j : Nat) : Int).toNat]? = some (fn (gridNode f xMin xMax n j)) := by
    rw [Int.toNat_natCast, List.getElem?_map, List.getElem?_range (by omega)]; rfl
  have g2 : ((List.range (n + 1)).map fun i => fn (gridNode f xMin xMax n i))[(((j : Nat) : Int) + 1).toNat]? = some (fn (gridNode f xMin xMax n (j + 1))) := by
    rw [show ((j : Nat) : Int) + 1 = ((j + 1 : Nat) : Int) by push_cast; rfl, Int.toNat_natCast, List.getElem?_map, List.getElem?_range (by omega)]; rfl
  rw [g1, g2]

/-- The step that is computed. -/
theorem step_close {f : Fmt} (hf : f = .double ∨ f = .single) {xMin xMax : Flt} {a b : ℚ} (ha : Stands f xMin a) (hb : Stands f xMax b) (hab : a < b)
    (hM : b - a ≤ f.maxVal / 2) {n : Nat} (hn : 0 < n) (hp : (n : ℚ) * 16 ≤ 2 ^ f.prec) (hs : n * (2 ^ f.prec * 2 ^ f.emin) ≤ b - a) :
    ∃ s, Stands f (gridStep f xMin xMax n) s ∧ |s - (b - a) / n| ≤ 2001 / 1000 * (1 / 2 ^ f.prec) * ((b - a) / n) := by
  obtain ⟨k1, k2, k3, k4⟩ := fmt_consts hf
  have hn1 : (1 : ℚ) ≤ n := by exact_mod_cast hn
  obtain ⟨u, hu⟩ : ∃ u : ℚ, u = 1 / 2 ^ f.prec := ⟨_, rfl⟩
  have hu0 : 0 < u := by rw [hu]; positivity
  have hu1 : u ≤ 1 / 2 ^ 24 := by
    rw [hu]
    exact one_div_le_one_div_of_le (by norm_num) k1
  have hdiv : ∀ z : ℚ, z / 2 ^ f.prec = z * u := by intro z; rw [hu]; ring
  have D := sub_stands hf hb ha (by rw [abs_of_pos (by linarith)]; linarith)
  have eD : |f.srnd (b - a) - (b - a)| ≤ (b - a) * u := by
    have := srnd_rel (f := f) (prec_pos hf) (q := b - a) (by
      rw [sub_eq_add_neg]
      exact multiple_add (binary_mul hb.binary) (multiple_neg (binary_mul ha.binary)))
    rwa [hdiv, abs_of_pos (by linarith : 0 < b - a)] at this
  have r1 : Stands f (f.ofRat (n : ℚ)) n := by
    have hi : |(n : Int)| < 2 ^ f.prec := by
      have : ((n : Int) : ℚ) < 2 ^ f.prec := by push_cast; linarith
      rw [abs_of_nonneg (by omega)]
      exact_mod_cast this
    have := result_stands hf false (q := (n : ℚ)) (by simpa using int_max hf hi)
    rw [Fmt.srnd_self (prec_pos hf) (by simpa using int_binary hf hi)] at this
    exact this
  generalize f.srnd (b - a) = S at *
  have hS := abs_le.1 eD
  have hDu : (b - a) * u ≤ (b - a) * (1 / 2 ^ 24) := mul_le_mul_of_nonneg_left hu1 (by linarith)
  have hn0 : (0 : ℚ) < n := by linarith
  have hS0 : 0 < S := by linarith
  have hSn : S / n ≤ S := div_le_self hS0.le hn1
  have hSM := D.abs_le
  rw [abs_of_pos hS0] at hSM
  have Q := div_stands hf D r1 hn0.ne' (by rw [abs_of_pos (by positivity)]; linarith)
  have eQ : |f.srnd (S / n) - S / n| ≤ S / n * u := by
    have := srnd_rel_normal (f := f) (q := S / n) (by
      rw [abs_of_pos (by positivity), mul_div_assoc', le_div_iff₀ hn0]
      linarith)
    rwa [hdiv, abs_of_pos (by positivity : 0 < S / n)] at this
  refine ⟨_, Q, ?_⟩
  rw [← hu]
  have e1 : |S / n - (b - a) / n| ≤ (b - a) / n * u := by
    rw [← sub_div, abs_div, abs_of_pos hn0, div_mul_eq_mul_div]
    exact div_le_div_of_nonneg_right eD hn0.le
  generalize f.srnd (S / n) = s at *
  have hpos : 0 < (b - a) / n := by apply div_pos _ hn0; linarith
  generalize (b - a) / n = h at *
  have e2 := abs_le.1 e1
  have e3 : S / n * u ≤ (h + h * u) * u := mul_le_mul_of_nonneg_right (by linarith) hu0.le
  have e4 : (h + h * u) * u = h * u + h * u * u := by ring
  have e5 : h * u * u ≤ h * u * (1 / 1000) := mul_le_mul_of_nonneg_left (hu1.trans (by norm_num)) (by positivity)
  have t := abs_sub_le s (S / n) h
  linarith

/-- With weight one the result is the second value. -/
theorem lerp_one {f : Fmt} (hf : f = .double ∨ f = .single) {w x y : Flt} {a b : ℚ} (hw : Stands f w 1)
    (hx : Stands f x a) (hy : Stands f y b) : Stands f (lerp f w x y) b := by
  have hp := prec_pos hf
  have hmax : 1 ≤ f.maxVal := le_trans (by norm_num) (fmt_consts hf).2.2.2
  have c1 := sub_stands hf (one_stands hf) hw (by norm_num; linarith)
  rw [sub_self, Fmt.srnd_zero] at c1
  have p1 := mul_stands hf c1 hx (by rw [zero_mul, abs_zero]; linarith)
  rw [zero_mul, Fmt.srnd_zero] at p1
  have p2 := mul_stands hf hw hy (by rw [one_mul]; exact hy.abs_le)
  rw [one_mul, Fmt.srnd_self hp hy.binary] at p2
  have s := add_stands hf p1 p2 (by rw [zero_add]; exact hy.abs_le)
  rwa [zero_add, Fmt.srnd_self hp hy.binary] at s

/-- The index that is computed for an argument within the range. -/
theorem index_close {f : Fmt} (hf : f = .double ∨ f = .single) {xMin xMax x : Flt} {a b q : ℚ} (ha : Stands f xMin a) (hb : Stands f xMax b)
    (hx : Stands f x q) (hab : a < b) (hM : b - a ≤ f.maxVal / 2) {n : Nat} (hn : 0 < n) (hp : (n : ℚ) * 16 ≤ 2 ^ f.prec)
    (hs : n * (2 ^ f.prec * 2 ^ f.emin) ≤ b - a) (h1 : a ≤ q) (h2 : q ≤ b) :
    ∃ t, Stands f (f.div (f.sub x xMin) (gridStep f xMin xMax n)) t ∧ 0 ≤ t ∧ |t - (q - a) / (b - a) * n| ≤ 5 * n / 2 ^ f.prec := by
  obtain ⟨k1, k2, k3, k4⟩ := fmt_consts hf
  obtain ⟨s, sS, eS⟩ := step_close hf ha hb hab hM hn hp hs
  have hn1 : (1 : ℚ) ≤ n := by exact_mod_cast hn
  have hn0 : (0 : ℚ) < n := by linarith
  have k5 : (2 : ℚ) ^ f.emin ≤ 1 / 100 * (1 / 2 ^ f.prec) := by rcases hf with rfl | rfl <;> decide +kernel
  have k6 : (2 : ℚ) ^ f.prec ≤ 2 ^ 100 := pow_le_pow_right₀ (by norm_num) (by rcases hf with rfl | rfl <;> decide)
  obtain ⟨u, hu⟩ : ∃ u : ℚ, u = 1 / 2 ^ f.prec := ⟨_, rfl⟩
  have hu0 : 0 < u := by rw [hu]; positivity
  have hu1 : u ≤ 1 / 2 ^ 24 := by
    rw [hu]
    exact one_div_le_one_div_of_le (by norm_num) k1
  have hun : u * n ≤ 1 / 16 := by
    rw [hu, one_div_mul_eq_div, div_le_iff₀ (by positivity)]; linarith
  have hdiv : ∀ z : ℚ, z / 2 ^ f.prec = z * u := by intro z; rw [hu]; ring
  rw [← hu] at eS k5
  have hu2 : u ≤ 1 / 1000000 := hu1.trans (by norm_num)
  have D := sub_stands hf hx ha (by rw [abs_of_nonneg (by linarith)]; linarith)
  have eD : |f.srnd (q - a) - (q - a)| ≤ (q - a) * u := by
    have := srnd_rel (f := f) (prec_pos hf) (q := q - a) (by
      rw [sub_eq_add_neg]
      exact multiple_add (binary_mul hx.binary) (multiple_neg (binary_mul ha.binary)))
    rwa [hdiv, abs_of_nonneg (by linarith : 0 ≤ q - a)] at this
  have hD0 : 0 ≤ f.srnd (q - a) := srnd_pos_le (by linarith)
  generalize f.srnd (q - a) = d at *
  have hh : 0 < (b - a) / n := by apply div_pos _ hn0; linarith
  have et : (q - a) / (b - a) * n = (q - a) / ((b - a) / n) := by
    have : b - a ≠ 0 := by linarith
    field_simp
  rw [et]
  have ht0 : 0 ≤ (q - a) / ((b - a) / n) := div_nonneg (by linarith) hh.le
  have htn : (q - a) / ((b - a) / n) ≤ n := by
    rw [div_le_iff₀ hh, mul_div_cancel₀ _ hn0.ne']; linarith
  have hqt : q - a = (q - a) / ((b - a) / n) * ((b - a) / n) := by rw [div_mul_cancel₀ _ hh.ne']
  generalize (q - a) / ((b - a) / n) = t at *
  generalize (b - a) / n = h at *
  have hS := abs_le.1 eS
  have uh : u * h ≤ 1 / 1000000 * h := mul_le_mul_of_nonneg_right hu2 hh.le
  have hs0 : 0 < s := by linarith
  -- the exact quotient of the computed values
  have e1 : |d / s - t| ≤ 3002 / 1000 * (u * t) := by
    have : d / s - t = (d - t * s) / s := by field_simp
    rw [this, abs_div, abs_of_pos hs0, div_le_iff₀ hs0]
    have g1 : |d - t * s| ≤ |d - (q - a)| + t * |s - h| := by
      have e : d - t * s = (d - (q - a)) + -(t * (s - h)) := by rw [mul_sub, ← hqt]; ring
      rw [e]
      refine (abs_add_le _ _).trans ?_
      rw [abs_neg, abs_mul, abs_of_nonneg ht0]
    have g2 : t * |s - h| ≤ t * (2001 / 1000 * u * h) := mul_le_mul_of_nonneg_left eS ht0
    rw [hqt] at eD
    have g3 : 0 ≤ u * t := by positivity
    have g4 : 3002 / 1000 * (u * t) * ((1 - 3 / 1000000) * h) ≤ 3002 / 1000 * (u * t) * s :=
      mul_le_mul_of_nonneg_left (by linarith) (by positivity)
    have g5 : 0 ≤ u * t * h := by positivity
    rw [← hqt] at eD
    have g6 : (q - a) * u = u * t * h := by rw [hqt]; ring
    have g7 : t * (2001 / 1000 * u * h) = 2001 / 1000 * (u * t * h) := by ring
    have g8 : 3002 / 1000 * (u * t) * ((1 - 3 / 1000000) * h) = 3002 / 1000 * (1 - 3 / 1000000) * (u * t * h) := by ring
    linarith
  have hds0 : 0 ≤ d / s := by positivity
  have hut : u * t ≤ u * n := mul_le_mul_of_nonneg_left htn hu0.le
  have hut' : u * t ≤ 1 / 1000000 * t := mul_le_mul_of_nonneg_right hu2 ht0
  have hds := (abs_le.1 e1).2
  have Q := div_stands hf D sS hs0.ne' (by
    rw [abs_of_nonneg hds0]
    have : (n : ℚ) ≤ 2 ^ 100 / 16 := by linarith
    linarith)
  have eQ := srnd_err (f := f) (d / s)
  rw [hdiv, abs_of_nonneg hds0] at eQ
  refine ⟨_, Q, srnd_pos_le hds0, ?_⟩
  have t1 := abs_sub_le (f.srnd (d / s)) (d / s) t
  have t2 : d / s * u ≤ (1001 / 1000 * t) * u := mul_le_mul_of_nonneg_right (by linarith) hu0.le
  have hun0 : u * 1 ≤ u * n := mul_le_mul_of_nonneg_left hn1 hu0.le
  rw [hdiv]
  linarith

/-- C122. Within its range the function is the piecewise linear function through the values that were stored, to `10 n + 8` units of the
largest of them, if it has `n` intervals that are not too many or too short for the format. -/
theorem C122_value (f : Fmt) (hf : f = .double ∨ f = .single) (xMin xMax x : Flt) (a b q M : ℚ) (n : Nat) (fn : Flt → Flt) (d : Nat → ℚ)
    (ha : Stands f xMin a) (hb : Stands f xMax b) (hx : Stands f x q) (hab : a < b) (hM : b - a ≤ f.maxVal / 2) (hn : 0 < n) (hn' : n < 2 ^ 31)
    (hp : (n : ℚ) * 16 ≤ 2 ^ f.prec) (hs : n * (2 ^ f.prec * 2 ^ f.emin) ≤ b - a)
    (hd : ∀ i ≤ n, Stands f (fn (gridNode f xMin xMax n i)) (d i) ∧ |d i| ≤ M) (hM' : 8 * M ≤ f.maxVal) (h1 : a ≤ q) (h2 : q ≤ b) :
    ∃ r v, gridEval f (gridNew f xMin xMax n fn) x = .ok r ∧ Stands f r v ∧
      |v - piecewise n d ((q - a) / (b - a) * n)| ≤ (10 * n + 8) * M / 2 ^ f.prec + 2 * 2 ^ f.emin := by
  obtain ⟨k1, k2, k3, k4⟩ := fmt_consts hf
  obtain ⟨t, ht, ht0, et⟩ := index_close hf ha hb hx hab hM hn hp hs h1 h2
  have hn1 : (1 : ℚ) ≤ n := by exact_mod_cast hn
  have hpos : (0 : ℚ) < 2 ^ f.prec := by positivity
  have hT0 : 0 ≤ (q - a) / (b - a) * n := mul_nonneg (div_nonneg (by linarith) (by linarith)) (by linarith)
  have hTn : (q - a) / (b - a) * n ≤ n := by
    have : (q - a) / (b - a) ≤ 1 := by rw [div_le_one (by linarith)]; linarith
    nlinarith
  have he : 5 * n / (2 : ℚ) ^ f.prec < 1 := by rw [div_lt_one hpos]; linarith
  have het := (abs_le.1 et).2
  obtain ⟨w, hw, hws⟩ := gridEval_eq (fn := fn) hf hn hn' hp ht ht0 (by linarith)
  have hP := piecewise_near hn (fun i hi => (hd i hi).2) hT0 ht0 et he
  have hlb : min ⌊t⌋.toNat (n - 1) + 1 ≤ n := by omega
  have hla : min ⌊t⌋.toNat (n - 1) ≤ n := by omega
  have hw0 : 0 ≤ t - (min ⌊t⌋.toNat (n - 1) : Nat) := by
    have g1 : ((min ⌊t⌋.toNat (n - 1) : Nat) : ℚ) ≤ (⌊t⌋.toNat : ℚ) := by exact_mod_cast min_le_left _ _
    have g2 : ((⌊t⌋.toNat : Nat) : ℚ) ≤ t := by
      have := Int.toNat_of_nonneg (Int.floor_nonneg.2 ht0)
      have h3 := Int.floor_le t
      rw [← this] at h3
      exact_mod_cast h3
    linarith
  have hw2 : t - (min ⌊t⌋.toNat (n - 1) : Nat) ≤ 2 := by
    rcases Nat.le_total ⌊t⌋.toNat (n - 1) with hc | hc
    · rw [min_eq_left hc]
      have := Int.toNat_of_nonneg (Int.floor_nonneg.2 ht0)
      have h3 := Int.lt_floor_add_one t
      rw [← this] at h3
      have h3 : t < (⌊t⌋.toNat : ℚ) + 1 := by exact_mod_cast h3
      linarith
    · rw [min_eq_right hc]
      have : ((n - 1 : Nat) : ℚ) = n - 1 := by rw [Nat.cast_sub hn, Nat.cast_one]
      rw [this]; linarith
  obtain ⟨v, hv, ev⟩ := lerp_wide hf hws hw0 hw2 (hd _ hla).1 (hd _ hlb).1 (hd _ hla).2 (hd _ hlb).2 hM'
  refine ⟨_, v, hw, hv, ?_⟩
  have e1 : (1 - (t - (min ⌊t⌋.toNat (n - 1) : Nat))) * d (min ⌊t⌋.toNat (n - 1)) + (t - (min ⌊t⌋.toNat (n - 1) : Nat)) * d (min ⌊t⌋.toNat (n - 1) + 1) =
      piecewise n d t := by unfold piecewise; ring
  rw [e1] at ev
  have := abs_sub_le v (piecewise n d t) (piecewise n d ((q - a) / (b - a) * n))
  have e2 : (10 * n + 8) * M / 2 ^ f.prec = 2 * M * (5 * n / 2 ^ f.prec) + 8 * M / 2 ^ f.prec := by ring
  rw [e2]
  linarith

/-- C122. The arguments for which the values were stored are the points of the grid to one unit of the lower limit and five of the width. -/
theorem C122_nodes (f : Fmt) (hf : f = .double ∨ f = .single) (xMin xMax : Flt) (a b : ℚ) (n : Nat)
    (ha : Stands f xMin a) (hb : Stands f xMax b) (hab : a < b) (ha' : |a| ≤ f.maxVal / 4) (hM : b - a ≤ f.maxVal / 4) (hn : 0 < n)
    (hp : (n : ℚ) * 16 ≤ 2 ^ f.prec) (hs : n * (2 ^ f.prec * 2 ^ f.emin) ≤ b - a) (i : Nat) (hi : i ≤ n) :
    ∃ x, Stands f (gridNode f xMin xMax n i) x ∧ |x - (a + i * ((b - a) / n))| ≤ (|a| + 5 * (b - a)) / 2 ^ f.prec := by
  obtain ⟨k1, k2, k3, k4⟩ := fmt_consts hf
  obtain ⟨s, sS, eS⟩ := step_close hf ha hb hab (by linarith) hn hp hs
  have hn1 : (1 : ℚ) ≤ n := by exact_mod_cast hn
  have hn0 : (0 : ℚ) < n := by linarith
  obtain ⟨u, hu⟩ : ∃ u : ℚ, u = 1 / 2 ^ f.prec := ⟨_, rfl⟩
  have hu0 : 0 < u := by rw [hu]; positivity
  have hu1 : u ≤ 1 / 2 ^ 24 := by
    rw [hu]
    exact one_div_le_one_div_of_le (by norm_num) k1
  have hu2 : u ≤ 1 / 1000000 := hu1.trans (by norm_num)
  have hdiv : ∀ z : ℚ, z / 2 ^ f.prec = z * u := by intro z; rw [hu]; ring
  rw [← hu] at eS
  have hi1 : (i : ℚ) ≤ n := by exact_mod_cast hi
  have hi0 : (0 : ℚ) ≤ i := by positivity
  have r1 : Stands f (f.ofRat (i : ℚ)) i := by
    have hi' : |(i : Int)| < 2 ^ f.prec := by
      have : ((i : Int) : ℚ) < 2 ^ f.prec := by push_cast; linarith
      rw [abs_of_nonneg (by omega)]
      exact_mod_cast this
    have := result_stands hf false (q := (i : ℚ)) (by simpa using int_max hf hi')
    rw [Fmt.srnd_self (prec_pos hf) (by simpa using int_binary hf hi')] at this
    exact this
  have hh : 0 < (b - a) / n := by apply div_pos _ hn0; linarith
  have hnh : n * ((b - a) / n) = b - a := mul_div_cancel₀ _ hn0.ne'
  have hsm : 2 ^ f.prec * 2 ^ f.emin ≤ (b - a) / n := by rw [le_div_iff₀ hn0]; linarith
  have hh' : (b - a) / n ≤ b - a := div_le_self (by linarith) hn1
  generalize (b - a) / n = h at *
  have hS := abs_le.1 eS
  have uh : u * h ≤ 1 / 1000000 * h := mul_le_mul_of_nonneg_right hu2 hh.le
  have hs0 : 0 < s := by linarith
  have hih : i * h ≤ b - a := by rw [← hnh]; exact mul_le_mul_of_nonneg_right hi1 hh.le
  have hih0 : 0 ≤ i * h := by positivity
  have e1 : |i * s - i * h| ≤ 2001 / 1000 * (u * (i * h)) := by
    rw [← mul_sub, abs_mul, abs_of_nonneg hi0]
    have := mul_le_mul_of_nonneg_left eS hi0
    linarith
  have uih : u * (i * h) ≤ u * (b - a) := mul_le_mul_of_nonneg_left hih hu0.le
  have uD : u * (b - a) ≤ 1 / 1000000 * (b - a) := mul_le_mul_of_nonneg_right hu2 (by linarith)
  have his := abs_le.1 e1
  have his0 : 0 ≤ i * s := by positivity
  have P := mul_stands hf r1 sS (by rw [abs_of_nonneg his0]; linarith)
  have eP : |f.srnd (i * s) - i * s| ≤ i * s * u := by
    rcases Nat.eq_zero_or_pos i with rfl | hip
    · simp [Fmt.srnd_zero]
    · have hi1 : (1 : ℚ) ≤ i := by exact_mod_cast hip
      have : |f.srnd (i * s) - i * s| ≤ |i * s| / 2 ^ f.prec := srnd_rel_normal (by
        rw [abs_of_nonneg his0]
        have : 1 * s ≤ i * s := mul_le_mul_of_nonneg_right hi1 hs0.le
        linarith)
      rwa [hdiv, abs_of_nonneg his0] at this
  have hp0 : 0 ≤ f.srnd (i * s) := srnd_pos_le his0
  have mP := binary_mul P.binary
  generalize f.srnd (i * s) = p at *
  have us : i * s * u ≤ (1001 / 1000 * (b - a)) * u := mul_le_mul_of_nonneg_right (by linarith) hu0.le
  have e2 : |p - i * h| ≤ 3003 / 1000 * (u * (b - a)) := by
    have := abs_sub_le p (i * s) (i * h)
    linarith
  have hpu := (abs_le.1 e2).2
  have hap : |a + p| ≤ |a| + 1001 / 1000 * (b - a) := by
    have := abs_add_le a p
    rw [abs_of_nonneg hp0] at this
    linarith
  have A := add_stands hf ha P (by linarith)
  have eA : |f.srnd (a + p) - (a + p)| ≤ |a + p| * u := by
    have := srnd_rel (f := f) (prec_pos hf) (multiple_add (binary_mul ha.binary) mP)
    rwa [hdiv] at this
  refine ⟨_, A, ?_⟩
  have e3 := mul_le_mul_of_nonneg_right hap hu0.le
  have e4 : f.srnd (a + p) - (a + i * h) = (f.srnd (a + p) - (a + p)) + (p - i * h) := by ring
  rw [e4, hdiv]
  have := abs_add_le (f.srnd (a + p) - (a + p)) (p - i * h)
  have uD0 : 0 ≤ u * (b - a) := mul_nonneg hu0.le (by linarith)
  linarith

/-- C122. Where the computed index is a whole number `i` of the grid, the value that was stored there is returned exactly. -/
theorem C122_at_node (f : Fmt) (hf : f = .double ∨ f = .single) (xMin xMax x : Flt) (n : Nat) (fn : Flt → Flt) (d : Nat → ℚ)
    (hn : 0 < n) (hn' : n < 2 ^ 31) (hp : (n : ℚ) * 16 ≤ 2 ^ f.prec) (i : Nat) (hi : i ≤ n)
    (hx : Stands f (f.div (f.sub x xMin) (gridStep f xMin xMax n)) i)
    (hd : ∀ i ≤ n, Stands f (fn (gridNode f xMin xMax n i)) (d i)) :
    ∃ r, gridEval f (gridNew f xMin xMax n fn) x = .ok r ∧ Stands f r (d i) := by
  have hin : (i : ℚ) ≤ n := by exact_mod_cast hi
  obtain ⟨w, hw, hws⟩ := gridEval_eq (fn := fn) hf hn hn' hp hx (by positivity) (by linarith)
  rw [Int.floor_natCast, Int.toNat_natCast] at hw hws
  refine ⟨_, hw, ?_⟩
  rcases Nat.lt_or_ge i n with h | h
  · rw [min_eq_left (by omega)] at hws ⊢
    rw [sub_self] at hws
    exact lerp_zero hf hws (hd i hi) (hd (i + 1) h)
  · have e : i = n := by omega
    subst e
    have e1 : min i (i - 1) = i - 1 := by omega
    rw [e1] at hws ⊢
    have e2 : i - 1 + 1 = i := by omega
    rw [e2]
    have e3 : (i : ℚ) - ((i - 1 : Nat) : ℚ) = 1 := by rw [Nat.cast_sub hn, Nat.cast_one]; ring
    rw [e3] at hws
    exact lerp_one hf hws (hd (i - 1) (by omega)) (hd i le_rfl)

/-- C122. The result is undefined exactly if the computed index is not finite or not within the limits of `int`. -/
theorem C122_undefined (f : Fmt) (xMin xMax x : Flt) (n : Nat) (fn : Flt → Flt) (hn : 0 < n) :
    gridEval f (gridNew f xMin xMax n fn) x = .ub ↔
      ¬ ∃ q : ℚ, (f.div (f.sub x xMin) (gridStep f xMin xMax n)).pos = some ((q : WithTop ℚ) : WithBot (WithTop ℚ)) ∧ -2 ^ 31 ≤ q ∧ q < 2 ^ 31 := by
  have hb' : (gridNew f xMin xMax n fn).base = xMin := rfl
  have hs' : (gridNew f xMin xMax n fn).step = gridStep f xMin xMax n := rfl
  have hp' : (gridNew f xMin xMax n fn).points = (n : Int) + 1 := rfl
  have hd' : (gridNew f xMin xMax n fn).data = (List.range (n + 1)).map fun i => fn (gridNode f xMin xMax n i) := rfl
  unfold gridEval
  rw [hb', hs', hp', hd']
  rcases e : f.div (f.sub x xMin) (gridStep f xMin xMax n) with ⟨s, m⟩ | ⟨_ | _⟩ | s
  · simp only [Flt.pos, Option.some.injEq, WithBot.coe_inj, WithTop.coe_inj, exists_eq_left']
    generalize (if s then -m else m) = v
    have hfl : (-2 ^ 31 ≤ v ∧ v < 2 ^ 31) ↔ ¬ (⌊v⌋ < -2 ^ 31 ∨ ⌊v⌋ ≥ 2 ^ 31) := by
      rw [not_or, not_lt, ge_iff_le, not_le, Int.le_floor, Int.floor_lt]
      push_cast
      rfl
    rw [hfl, not_not]
    constructor
    · intro h
      by_contra hc
      rw [if_neg hc] at h
      have c1 : 0 ≤ clampInt ⌊v⌋ 0 ((n : Int) + 1 - 2) ∧ clampInt ⌊v⌋ 0 ((n : Int) + 1 - 2) ≤ n - 1 := by
        unfold clampInt
        split
        · omega
        · split <;> omega
      generalize clampInt ⌊v⌋ 0 ((n : Int) + 1 - 2) = lb at *
      obtain ⟨j, rfl⟩ := Int.eq_ofNat_of_zero_le c1.1
      rw [if_neg (by omega)] at h
      have g1 : ((List.range (n + 1)).map fun i => fn (gridNode f xMin xMax n i))[((j : Nat) : Int).toNat]? = some (fn (gridNode f xMin xMax n j)) := by
        rw [Int.toNat_natCast, List.getElem?_map, List.getElem?_range (by omega)]; rfl
      have g2 : ((List.range (n + 1)).map fun i => fn (gridNode f xMin xMax n i))[(((j : Nat) : Int) + 1).toNat]? = some (fn (gridNode f xMin xMax n (j + 1))) := by
        rw [show ((j : Nat) : Int) + 1 = ((j + 1 : Nat) : Int) by push_cast; rfl, Int.toNat_natCast, List.getElem?_map, List.getElem?_range (by omega)]; rfl
      rw [g1, g2] at h
      cases h
    · intro h
      rw [if_pos h]
  · simp [Flt.pos]
  · simp [Flt.pos]
  · simp [Flt.pos]

/-- C122. It is not true that the function is defined for every finite argument: far outside the range it is not. -/
theorem C122_defined_refuted :
    ¬ ∀ (xMin xMax x : Flt) (a b q : ℚ) (n : Nat) (fn : Flt → Flt), Stands .double xMin a → Stands .double xMax b → Stands .double x q → a < b → 0 < n →
      gridEval .double (gridNew .double xMin xMax n fn) x ≠ .ub := by
  intro h
  have h0 : Stands .double (.fin false 0) 0 := by simpa using stands_double false (n := 0) (e := 0) (by norm_num) (by norm_num)
  have h1 : Stands .double (.fin false 1) 1 := by simpa using stands_double false (n := 1) (e := 0) (by norm_num) (by norm_num)
  have h2 : Stands .double (.fin false 2147483648) 2147483648 := by
    simpa using stands_double false (n := 2147483648) (e := 0) (by norm_num) (by norm_num)
  exact h (.fin false 0) (.fin false 1) (.fin false 2147483648) 0 1 2147483648 1 id h0 h1 h2 (by norm_num) (by norm_num) (by decide +kernel)

/-- C122. It is not true that the values that were stored are returned exactly for the arguments for which they were computed: with ten intervals
from 0 to 1 the fourth argument is given an index just above 3. -/
theorem C122_at_node_refuted :
    ¬ ∀ (xMin xMax : Flt) (a b : ℚ) (n i : Nat) (fn : Flt → Flt), Stands .double xMin a → Stands .double xMax b → a < b → 0 < n → i ≤ n →
      gridEval .double (gridNew .double xMin xMax n fn) (gridNode .double xMin xMax n i) = .ok (fn (gridNode .double xMin xMax n i)) := by
  intro h
  have h0 : Stands .double (.fin false 0) 0 := by simpa using stands_double false (n := 0) (e := 0) (by norm_num) (by norm_num)
  have h1 : Stands .double (.fin false 1) 1 := by simpa using stands_double false (n := 1) (e := 0) (by norm_num) (by norm_num)
  exact absurd (h (.fin false 0) (.fin false 1) 0 1 10 3 (fun x => Fmt.double.mul x x) h0 h1 (by norm_num) (by norm_num) (by norm_num))
    (by decide +kernel)

/-- The squares of 0, 1/2, 1, 3/2 and 2 meet the hypotheses of `C122_value`, `C122_nodes` and `C122_at_node`. -/
example : (∀ i ≤ 4, Stands .double (Fmt.double.mul (gridNode .double (.fin false 0) (.fin false 2) 4 i) (gridNode .double (.fin false 0) (.fin false 2) 4 i))
      ((i : ℚ) ^ 2 / 4) ∧ |(i : ℚ) ^ 2 / 4| ≤ 4) ∧ Stands .double (.fin false 0) 0 ∧ Stands .double (.fin false 2) 2 ∧
    (2 - 0 : ℚ) ≤ Fmt.double.maxVal / 4 ∧ ((4 : Nat) : ℚ) * 16 ≤ 2 ^ Fmt.double.prec ∧
    ((4 : Nat) : ℚ) * (2 ^ Fmt.double.prec * 2 ^ Fmt.double.emin) ≤ 2 - 0 ∧ 8 * (4 : ℚ) ≤ Fmt.double.maxVal := by
  refine ⟨?_, by simpa using stands_double false (n := 0) (e := 0) (by norm_num) (by norm_num),
    by simpa using stands_double false (n := 2) (e := 0) (by norm_num) (by norm_num), by decide +kernel, by decide +kernel, by decide +kernel, by decide +kernel⟩
  intro i hi
  have key : Fmt.double.mul (gridNode .double (.fin false 0) (.fin false 2) 4 i) (gridNode .double (.fin false 0) (.fin false 2) 4 i) =
      .fin false (((i ^ 2 : Nat) : ℚ) / 2 ^ 2) := by
    have : i = 0 ∨ i = 1 ∨ i = 2 ∨ i = 3 ∨ i = 4 := by omega
    rcases this with rfl | rfl | rfl | rfl | rfl <;> decide +kernel
  have hi' : i ^ 2 ≤ 16 := by nlinarith
  constructor
  · rw [key]
    have := stands_double false (n := i ^ 2) (e := 2) (by omega) (by norm_num)
    norm_num at this ⊢
    exact this
  · rw [abs_of_nonneg (by positivity)]
    have : ((i ^ 2 : Nat) : ℚ) ≤ 16 := by exact_mod_cast hi'
    push_cast at this
    linarith

/-- The function through these squares, at 1 and at 5/4, and the index of 1. -/
example : gridEval .double (gridNew .double (.fin false 0) (.fin false 2) 4 fun x => Fmt.double.mul x x) (.fin false 1) = .ok (.fin false 1) ∧
    gridEval .double (gridNew .double (.fin false 0) (.fin false 2) 4 fun x => Fmt.double.mul x x) (.fin false (5 / 4)) = .ok (.fin false (13 / 8)) ∧
    Fmt.double.div (Fmt.double.sub (.fin false 1) (.fin false 0)) (gridStep .double (.fin false 0) (.fin false 2) 4) = .fin false 2 := by
  decide +kernel

/-- Both sides of `C122_undefined` occur. -/
example : gridEval .double (gridNew .double (.fin false 0) (.fin false 1) 1 id) (.nan false) = .ub ∧
    gridEval .double (gridNew .double (.fin false 0) (.fin false 1) 1 id) (.fin true 3) = .ok (.fin true 3) := by
  decide +kernel

end Flut
