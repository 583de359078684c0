import Verif.Proofs.FloatOps

/-! # C100: `soft_clamp` in floating-point arithmetic -/

namespace Flut

open Spec FloatMath

/-- That the result stays inside the limits is false in floating-point arithmetic: 1e17, softly clamped between 0 and 0.3 with boundary
0.1, is above 0.3. -/
theorem C100_inside_refuted : let d := Fmt.double.ofRat
    (d (3 / 10)).lt (softClamp .double (d 100000000000000000) (d 0) (d (3 / 10)) (d (1 / 10))) = true := by
  decide +kernel

/-- If the square of the soft part of the range overflows, the result is minus infinity. -/
theorem C100_overflow_refuted : let d := Fmt.double.ofRat
    softClamp .double (d (10 ^ 200)) (d 0) (d (10 ^ 200)) (d (1 / 10)) = .inf true := by
  decide +kernel

/-- The result need not increase with the value: the limit of the soft part at the lower end, between -1 and 1 with boundary 0.4, is
returned as it is, but the number before it gives more. -/
theorem C100_monotone_refuted : let d := Fmt.double.ofRat
    let s := Flt.fin true (7205759403792792 / 2 ^ 55)
    let v := Flt.fin true (7205759403792793 / 2 ^ 55)
    v.lt s = true ∧ (softClamp .double s (d (-1)) (d 1) (d (4 / 10))).lt (softClamp .double v (d (-1)) (d 1) (d (4 / 10))) = true := by
  decide +kernel

/-- The part of the function that approaches the limit, in exact terms. -/
def approach (f : Fmt) (X R : ℚ) : ℚ := f.srnd (R - f.srnd (f.srnd (R * R) / f.srnd (X + R)))

theorem limit_stands {f : Fmt} (hf : f = .double ∨ f = .single) {k : Nat} (hk : (2 : ℚ) ^ (2 * k + 8) ≤ f.maxVal) {x l : Flt} {X R : ℚ}
    (hx : Stands f x X) (hl : Stands f l R) (hX : 0 ≤ X) (hR : 0 ≤ R) (hXR : 0 < X + R) (hX' : X ≤ 2 ^ (k + 2)) (hR' : R ≤ 2 ^ k) :
    Stands f (limitTransfer f x l) (approach f X R) ∧ -R ≤ approach f X R ∧ approach f X R ≤ R := by
  have hp := prec_pos hf
  have K : ∀ {q : ℚ} {j : Nat}, j ≤ 2 * k + 8 → |q| ≤ 2 ^ j → |q| ≤ f.maxVal := fun hj h =>
    (h.trans (pow_le_pow_right₀ (by norm_num) hj)).trans hk
  have hone : (1 : ℚ) ≤ 2 ^ k := one_le_pow₀ (by norm_num)
  have e3 : (2 : ℚ) ^ (k + 3) = 8 * 2 ^ k := by rw [pow_add]; ring
  have e2 : (2 : ℚ) ^ (k + 2) = 4 * 2 ^ k := by rw [pow_add]; ring
  have e1 : (2 : ℚ) ^ (k + 1) = 2 * 2 ^ k := by rw [pow_add]; ring
  have hRR : |R * R| ≤ 2 ^ (2 * k) := by
    rw [abs_of_nonneg (mul_nonneg hR hR), two_mul, pow_add]
    exact mul_le_mul hR' hR' hR (by positivity)
  have s1 := mul_stands hf hl hl (K (by omega) hRR)
  have s2 := add_stands hf hx hl (K (j := k + 3) (by omega) (by rw [abs_of_nonneg hXR.le, e3]; rw [e2] at hX'; linarith))
  have hD : 0 < f.srnd (X + R) := srnd_sum_pos hp hx.binary hl.binary hXR
  have hDR : R ≤ f.srnd (X + R) := Fmt.le_srnd hp hl.binary (by linarith)
  have hq0 : 0 ≤ f.srnd (R * R) := srnd_pos_le (mul_nonneg hR hR)
  have hq1 : f.srnd (R * R) ≤ 2 * (R * R) := srnd_le_two hp (mul_nonneg hR hR)
  have hdiv : f.srnd (R * R) / f.srnd (X + R) ≤ 2 * R := by
    rw [div_le_iff₀ hD]; nlinarith
  have hdiv0 : 0 ≤ f.srnd (R * R) / f.srnd (X + R) := div_nonneg hq0 hD.le
  have s3 := div_stands hf s1 s2 hD.ne' (K (j := k + 1) (by omega) (by rw [abs_of_nonneg hdiv0, e1]; linarith))
  have hq2 : 0 ≤ f.srnd (f.srnd (R * R) / f.srnd (X + R)) := srnd_pos_le hdiv0
  have hq3 : f.srnd (f.srnd (R * R) / f.srnd (X + R)) ≤ 2 * R := Fmt.srnd_le hp (binary_double hl.binary) hdiv
  have s4 := sub_stands hf hl s3 (K (j := k + 1) (by omega) (by rw [abs_le, e1]; constructor <;> linarith))
  exact ⟨s4, Fmt.le_srnd hp (Fmt.isBinary_neg hl.binary) (by linarith), Fmt.srnd_le hp hl.binary (by linarith)⟩

theorem approach_mono {f : Fmt} (hf : f = .double ∨ f = .single) {X Y R : ℚ} (hR : 0 ≤ R) (h : X ≤ Y)
    (hX : 0 < f.srnd (X + R)) : approach f X R ≤ approach f Y R := by
  have hp := prec_pos hf
  unfold approach
  have h1 : f.srnd (X + R) ≤ f.srnd (Y + R) := Fmt.srnd_mono hp (by linarith)
  have h2 : 0 ≤ f.srnd (R * R) := srnd_pos_le (mul_nonneg hR hR)
  have h3 : f.srnd (R * R) / f.srnd (Y + R) ≤ f.srnd (R * R) / f.srnd (X + R) := div_le_div_of_nonneg_left h2 hX h1
  have h4 := Fmt.srnd_mono hp h3
  exact Fmt.srnd_mono hp (by linarith)

/-- What the theorems assume: numbers that are not so large that squares overflow, a range that is not tiny, and a soft part of at
most one half. -/
structure Usable (f : Fmt) (k : Nat) (lo hi s : Flt) (a b c : ℚ) : Prop where
  fmt : f = .double ∨ f = .single
  max : (2 : ℚ) ^ (2 * k + 8) ≤ f.maxVal
  lo : Stands f lo a
  hi : Stands f hi b
  soft : Stands f s c
  lower : |a| ≤ 2 ^ k
  upper : |b| ≤ 2 ^ k
  nonneg : 0 ≤ c
  half : c ≤ 1 / 2
  width : f.minNormal ≤ b - a

set_option maxHeartbeats 800000 in
/-- The numbers computed before the value is looked at. -/
theorem soft_parts {f : Fmt} {k : Nat} {lo hi s : Flt} {a b c : ℚ} (u : Usable f k lo hi s a b c) :
    ∃ r ε : ℚ, ε = 1 / 2 ^ f.prec ∧ 0 < ε ∧ ε ≤ 1 / 1000 ∧ 0 ≤ r ∧ r ≤ 2 ^ k ∧ r ≤ |a| + |b| ∧ r ≤ c * (b - a) + 4 * ((|a| + |b|) * ε) ∧
      Stands f (f.mul s (f.sub hi lo)) r ∧
      Stands f (f.sub hi (f.mul s (f.sub hi lo))) (f.srnd (b - r)) ∧ Stands f (f.add lo (f.mul s (f.sub hi lo))) (f.srnd (a + r)) ∧
      |f.srnd (b - r)| ≤ 2 ^ (k + 1) ∧ |f.srnd (a + r)| ≤ 2 ^ (k + 1) ∧ f.srnd (b - r) ≤ b ∧ a ≤ f.srnd (a + r) ∧
      |f.srnd (b - r) - (b - r)| ≤ 2 * ((|a| + |b|) * ε) ∧ |f.srnd (a + r) - (a + r)| ≤ 2 * ((|a| + |b|) * ε) := by
  obtain ⟨hf, hk, hlo, hhi, hs, ha, hb, hc, hc2, hw⟩ := u
  have hp := prec_pos hf
  have hab : 0 < b - a := lt_of_lt_of_le (Fmt.pow_pos _) hw
  have K : ∀ {q : ℚ} {j : Nat}, j ≤ 2 * k + 8 → |q| ≤ 2 ^ j → |q| ≤ f.maxVal := fun hj h =>
    (h.trans (pow_le_pow_right₀ (by norm_num) hj)).trans hk
  have e2 : (2 : ℚ) ^ (k + 2) = 4 * 2 ^ k := by rw [pow_add]; ring
  have e1 : (2 : ℚ) ^ (k + 1) = 2 * 2 ^ k := by rw [pow_add]; ring
  obtain ⟨ha1, ha2⟩ := abs_le.1 ha
  obtain ⟨hb1, hb2⟩ := abs_le.1 hb
  have hA1 := abs_le.1 (le_refl |a|)
  have hB1 := abs_le.1 (le_refl |b|)
  generalize hA : |a| + |b| = A at *
  have hAn : 0 ≤ A := by rw [← hA]; positivity
  -- epsilon
  obtain ⟨ε, hε⟩ : ∃ ε : ℚ, ε = 1 / 2 ^ f.prec := ⟨_, rfl⟩
  have hε0 : 0 < ε := by rw [hε]; positivity
  have hε1 : ε ≤ 1 / 1000 := by
    rw [hε]; rcases hf with rfl | rfl <;> norm_num [Fmt.double, Fmt.single]
  have hAε : 0 ≤ A * ε := by positivity
  have hdivA : ∀ q : ℚ, q / 2 ^ f.prec = q * ε := fun q => by rw [hε]; ring
  have hemin : (2 : ℚ) ^ f.emin ≤ 2 * (A * ε) := by
    have h1 : f.minNormal = 2 ^ f.emin * 2 ^ f.prec / 2 := by
      unfold Fmt.minNormal
      rw [← add_sub_assoc, zpow_sub_one₀ (by norm_num), zpow_add₀ (by norm_num), zpow_natCast]
      ring
    have h2 : f.minNormal ≤ A := by linarith
    rw [h1] at h2
    have h3 : (2 : ℚ) ^ f.emin = 2 ^ f.emin * 2 ^ f.prec * ε := by rw [hε]; field_simp
    rw [h3]
    nlinarith
  -- the width
  have sw := sub_stands hf hhi hlo (K (j := k + 1) (by omega) (by rw [abs_of_nonneg hab.le, e1]; linarith))
  have hww : |f.srnd (b - a)| ≤ 2 ^ (k + 1) := srnd_abs_pow hf (by rw [abs_of_nonneg hab.le, e1]; linarith)
  have hwe := srnd_rel (f := f) hp (q := b - a)
    (by rw [sub_eq_add_neg]; exact multiple_add (binary_mul hhi.binary) (multiple_neg (binary_mul hlo.binary)))
  rw [abs_of_nonneg hab.le, hdivA] at hwe
  have hw0 : 0 ≤ f.srnd (b - a) := srnd_pos_le hab.le
  generalize f.srnd (b - a) = w at *
  rw [abs_of_nonneg hw0, e1] at hww
  have hwA : w ≤ (b - a) + A * ε := by
    have := (abs_le.1 hwe).2
    have : (b - a) * ε ≤ A * ε := by gcongr; linarith
    linarith
  -- the soft part
  have hcw0 : 0 ≤ c * w := mul_nonneg hc hw0
  have hcw1 : c * w ≤ w / 2 := by nlinarith
  have sr := mul_stands hf hs sw (K (j := k) (by omega) (by rw [abs_of_nonneg hcw0]; linarith))
  have hr0 : 0 ≤ f.srnd (c * w) := srnd_pos_le hcw0
  have hrk : f.srnd (c * w) ≤ 2 ^ k := Fmt.srnd_le hp (pow_binary hf k) (by linarith)
  have hre : f.srnd (c * w) ≤ c * w + w * ε + A * ε := by
    have h1 := (abs_le.1 (srnd_err (f := f) (c * w))).2
    rw [abs_of_nonneg hcw0, hdivA] at h1
    have h2 : c * w * ε ≤ w * ε := by gcongr; linarith
    linarith
  generalize f.srnd (c * w) = r at *
  have hwε : w * ε ≤ 2 * (A * ε) := by
    have : w ≤ 2 * A := by nlinarith
    nlinarith
  have h2r : 2 * r ≤ (b - a) + 7 * (A * ε) := by linarith
  have hrA : r ≤ A := by
    have : A * ε ≤ A * (1 / 1000) := by gcongr
    linarith
  -- the limits of the middle part
  have sS := sub_stands hf hhi sr (K (j := k + 1) (by omega) (by rw [abs_le, e1]; constructor <;> linarith))
  have sL := add_stands hf hlo sr (K (j := k + 1) (by omega) (by rw [abs_le, e1]; constructor <;> linarith))
  have hSk : |f.srnd (b - r)| ≤ 2 ^ (k + 1) := srnd_abs_pow hf (by rw [abs_le, e1]; constructor <;> linarith)
  have hLk : |f.srnd (a + r)| ≤ 2 ^ (k + 1) := srnd_abs_pow hf (by rw [abs_le, e1]; constructor <;> linarith)
  have hSe := srnd_rel (f := f) hp (q := b - r)
    (by rw [sub_eq_add_neg]; exact multiple_add (binary_mul hhi.binary) (multiple_neg (binary_mul sr.binary)))
  have hLe := srnd_rel (f := f) hp (q := a + r) (multiple_add (binary_mul hlo.binary) (binary_mul sr.binary))
  have hSb : f.srnd (b - r) ≤ b := Fmt.srnd_le hp hhi.binary (by linarith)
  have hLa : a ≤ f.srnd (a + r) := Fmt.le_srnd hp hlo.binary (by linarith)
  have hbrA : |b - r| ≤ 2 * A := by rw [abs_le]; constructor <;> linarith
  have harA : |a + r| ≤ 2 * A := by rw [abs_le]; constructor <;> linarith
  rw [hdivA] at hSe hLe
  have hSe : |f.srnd (b - r) - (b - r)| ≤ 2 * (A * ε) := hSe.trans (by nlinarith)
  have hLe : |f.srnd (a + r) - (a + r)| ≤ 2 * (A * ε) := hLe.trans (by nlinarith)
  have hr4 : r ≤ c * (b - a) + 4 * (A * ε) := by
    have : c * w ≤ c * (b - a) + A * ε := by
      have h1 : c * w ≤ c * ((b - a) + A * ε) := by gcongr
      have h2 : c * (A * ε) ≤ 1 * (A * ε) := by gcongr; linarith
      linarith
    linarith
  exact ⟨r, ε, hε, hε0, hε1, hr0, hrk, hrA, hr4, sr, sS, sL, hSk, hLk, hSb, hLa, hSe, hLe⟩

/-- The result for a value above the start of the upper part. -/
theorem soft_upper {f : Fmt} {k : Nat} {lo hi s x : Flt} {a b c v r : ℚ} (u : Usable f k lo hi s a b c) (hx : Stands f x v)
    (hv : |v| ≤ 2 ^ k) (hr0 : 0 ≤ r) (hrk : r ≤ 2 ^ k) (sr : Stands f (f.mul s (f.sub hi lo)) r)
    (sS : Stands f (f.sub hi (f.mul s (f.sub hi lo))) (f.srnd (b - r))) (hSk : |f.srnd (b - r)| ≤ 2 ^ (k + 1)) (h1 : f.srnd (b - r) < v) :
    ∃ T, T = approach f (f.srnd (f.srnd (v - b) + r)) r ∧ Stands f (softClamp f x lo hi s) (f.srnd (f.srnd (b - r) + T)) ∧ -r ≤ T ∧ T ≤ r ∧
      Spec.IsBinary f.prec f.emin T ∧ 0 < f.srnd (f.srnd (f.srnd (v - b) + r) + r) := by
  obtain ⟨hf, hk, hlo, hhi, hs, ha, hb, hc, hc2, hw⟩ := u
  have hp := prec_pos hf
  have K : ∀ {q : ℚ} {j : Nat}, j ≤ 2 * k + 8 → |q| ≤ 2 ^ j → |q| ≤ f.maxVal := fun hj h =>
    (h.trans (pow_le_pow_right₀ (by norm_num) hj)).trans hk
  have e2 : (2 : ℚ) ^ (k + 2) = 4 * 2 ^ k := by rw [pow_add]; ring
  have e1 : (2 : ℚ) ^ (k + 1) = 2 * 2 ^ k := by rw [pow_add]; ring
  obtain ⟨hb1, hb2⟩ := abs_le.1 hb
  obtain ⟨hv1, hv2⟩ := abs_le.1 hv
  unfold softClamp
  dsimp only
  rw [if_pos ((lt_stands sS hx).2 h1)]
  have hvr : b - r ≤ v := by
    by_contra hc'
    exact absurd (Fmt.le_srnd hp hx.binary (not_le.1 hc').le) (not_le.2 h1)
  have s5 := sub_stands hf hx hhi (K (j := k + 1) (by omega) (by rw [abs_le, e1]; constructor <;> linarith))
  have h5k : |f.srnd (v - b)| ≤ 2 ^ (k + 1) := srnd_abs_pow hf (by rw [abs_le, e1]; constructor <;> linarith)
  have h5 : -r ≤ f.srnd (v - b) := Fmt.le_srnd hp (Fmt.isBinary_neg sr.binary) (by linarith)
  rw [e1] at h5k
  have h5k' := abs_le.1 h5k
  have s6 := add_stands hf s5 sr (K (j := k + 2) (by omega) (by rw [abs_le, e2]; constructor <;> linarith))
  have h6 : 0 ≤ f.srnd (f.srnd (v - b) + r) := srnd_pos_le (by linarith)
  have h6k : f.srnd (f.srnd (v - b) + r) ≤ 2 ^ (k + 2) := Fmt.srnd_le hp (pow_binary hf _) (by rw [e2]; linarith)
  have h6p : 0 < f.srnd (f.srnd (v - b) + r) + r := by
    rcases hr0.eq_or_lt with hr | hr
    · have hv' : 0 < v - b := by
        rw [← hr, sub_zero, Fmt.srnd_self hp hhi.binary] at h1
        linarith
      have h7 : 0 < f.srnd (v - b) := by
        have := srnd_sum_pos hp hx.binary (Fmt.isBinary_neg hhi.binary) (by linarith)
        rwa [← sub_eq_add_neg] at this
      have := srnd_sum_pos hp s5.binary sr.binary (by linarith)
      linarith
    · linarith
  obtain ⟨sT, hT1, hT2⟩ := limit_stands hf hk s6 sr h6 hr0 h6p h6k hrk
  rw [e1] at hSk
  have hSk' := abs_le.1 hSk
  have s7 := add_stands hf sS sT (K (j := k + 2) (by omega) (by rw [abs_le, e2]; constructor <;> linarith))
  refine ⟨_, rfl, s7, hT1, hT2, sT.binary, srnd_sum_pos hp s6.binary sr.binary h6p⟩

/-- The result for a value below the end of the lower part. -/
theorem soft_lower {f : Fmt} {k : Nat} {lo hi s x : Flt} {a b c v r : ℚ} (u : Usable f k lo hi s a b c) (hx : Stands f x v)
    (hv : |v| ≤ 2 ^ k) (hr0 : 0 ≤ r) (hrk : r ≤ 2 ^ k) (sr : Stands f (f.mul s (f.sub hi lo)) r)
    (sS : Stands f (f.sub hi (f.mul s (f.sub hi lo))) (f.srnd (b - r)))
    (sL : Stands f (f.add lo (f.mul s (f.sub hi lo))) (f.srnd (a + r))) (hLk : |f.srnd (a + r)| ≤ 2 ^ (k + 1))
    (h1 : ¬ f.srnd (b - r) < v) (h2 : v < f.srnd (a + r)) :
    ∃ T, T = approach f (f.srnd (f.srnd (a + r) - v)) r ∧ Stands f (softClamp f x lo hi s) (f.srnd (f.srnd (a + r) - T)) ∧ -r ≤ T ∧ T ≤ r ∧
      Spec.IsBinary f.prec f.emin T ∧ 0 < f.srnd (f.srnd (f.srnd (a + r) - v) + r) := by
  obtain ⟨hf, hk, hlo, hhi, hs, ha, hb, hc, hc2, hw⟩ := u
  have hp := prec_pos hf
  have K : ∀ {q : ℚ} {j : Nat}, j ≤ 2 * k + 8 → |q| ≤ 2 ^ j → |q| ≤ f.maxVal := fun hj h =>
    (h.trans (pow_le_pow_right₀ (by norm_num) hj)).trans hk
  have e2 : (2 : ℚ) ^ (k + 2) = 4 * 2 ^ k := by rw [pow_add]; ring
  have e1 : (2 : ℚ) ^ (k + 1) = 2 * 2 ^ k := by rw [pow_add]; ring
  obtain ⟨hv1, hv2⟩ := abs_le.1 hv
  unfold softClamp
  dsimp only
  rw [if_neg (by rw [lt_stands sS hx]; exact h1)]
  rw [if_pos ((lt_stands hx sL).2 h2)]
  rw [e1] at hLk
  have hLk' := abs_le.1 hLk
  have s5 := sub_stands hf sL hx (K (j := k + 2) (by omega) (by rw [abs_le, e2]; constructor <;> linarith))
  have h5 : 0 < f.srnd (f.srnd (a + r) - v) := by
    have := srnd_sum_pos hp sL.binary (Fmt.isBinary_neg hx.binary) (by linarith)
    rwa [← sub_eq_add_neg] at this
  have h5k : f.srnd (f.srnd (a + r) - v) ≤ 2 ^ (k + 2) := Fmt.srnd_le hp (pow_binary hf _) (by rw [e2]; linarith)
  obtain ⟨sT, hT1, hT2⟩ := limit_stands hf hk s5 sr h5.le hr0 (by linarith) h5k hrk
  have s7 := sub_stands hf sL sT (K (j := k + 2) (by omega) (by rw [abs_le, e2]; constructor <;> linarith))
  refine ⟨_, rfl, s7, hT1, hT2, sT.binary, srnd_sum_pos hp s5.binary sr.binary (by linarith)⟩

theorem soft_middle {f : Fmt} {lo hi s x : Flt} {v S L : ℚ} (hx : Stands f x v)
    (sS : Stands f (f.sub hi (f.mul s (f.sub hi lo))) S) (sL : Stands f (f.add lo (f.mul s (f.sub hi lo))) L)
    (h1 : ¬ S < v) (h2 : ¬ v < L) : softClamp f x lo hi s = x := by
  unfold softClamp
  dsimp only
  rw [if_neg (by rw [lt_stands sS hx]; exact h1), if_neg (by rw [lt_stands hx sL]; exact h2)]

/-- The limits are exceeded by rounding errors only: at most sixteen times the size of the limits, divided by two to the number of
bits. -/
theorem C100_near (f : Fmt) (k : Nat) (x lo hi s : Flt) (v a b c : ℚ) (u : Usable f k lo hi s a b c) (hx : Stands f x v)
    (hv : |v| ≤ 2 ^ k) :
    ∃ y, Stands f (softClamp f x lo hi s) y ∧ a - 16 * (|a| + |b|) / 2 ^ f.prec ≤ y ∧ y ≤ b + 16 * (|a| + |b|) / 2 ^ f.prec := by
  have hp := prec_pos u.fmt
  obtain ⟨r, ε, hε, hε0, hε1, hr0, hrk, hrA, hr4, sr, sS, sL, hSk, hLk, hSb, hLa, hSe, hLe⟩ := soft_parts u
  have hc := u.nonneg
  have hc2 := u.half
  have hab : 0 < b - a := lt_of_lt_of_le (Fmt.pow_pos _) u.width
  have hA1 := abs_le.1 (le_refl |a|)
  have hB1 := abs_le.1 (le_refl |b|)
  have hAn : 0 ≤ |a| + |b| := by positivity
  generalize hA : |a| + |b| = A at *
  have ha0 := abs_nonneg a
  have hb0 := abs_nonneg b
  have h2r : 2 * r ≤ (b - a) + 8 * (A * ε) := by nlinarith
  have hAε : 0 ≤ A * ε := by positivity
  have hdivA : ∀ q : ℚ, q / 2 ^ f.prec = q * ε := fun q => by rw [hε]; ring
  have hlin := abs_le.1 hSe
  have hlin' := abs_le.1 hLe
  have fin : ∀ {y q : ℚ}, |q| ≤ 2 * A → a - 10 * (A * ε) ≤ q → q ≤ b + 10 * (A * ε) → |y - q| ≤ |q| / 2 ^ f.prec →
      a - 16 * A / 2 ^ f.prec ≤ y ∧ y ≤ b + 16 * A / 2 ^ f.prec := by
    intro y q h4 h1 h2 h3
    rw [hdivA] at h3
    have h5 : |q| * ε ≤ 2 * (A * ε) := by nlinarith
    have h6 := abs_le.1 (h3.trans h5)
    rw [hdivA]
    constructor <;> linarith
  have size : ∀ {q : ℚ}, a - 10 * (A * ε) ≤ q → q ≤ b + 10 * (A * ε) → |q| ≤ 2 * A := by
    intro q h1 h2
    have : A * ε ≤ A * (1 / 1000) := by gcongr
    rw [abs_le]; constructor <;> linarith
  by_cases h1 : f.srnd (b - r) < v
  · obtain ⟨T, -, hy, hT1, hT2, hTb, -⟩ := soft_upper u hx hv hr0 hrk sr sS hSk h1
    have l1 : a - 10 * (A * ε) ≤ f.srnd (b - r) + T := by linarith
    have l2 : f.srnd (b - r) + T ≤ b + 10 * (A * ε) := by linarith
    exact ⟨_, hy, fin (size l1 l2) l1 l2 (srnd_rel hp (multiple_add (binary_mul sS.binary) (binary_mul hTb)))⟩
  · by_cases h2 : v < f.srnd (a + r)
    · obtain ⟨T, -, hy, hT1, hT2, hTb, -⟩ := soft_lower u hx hv hr0 hrk sr sS sL hLk h1 h2
      have l1 : a - 10 * (A * ε) ≤ f.srnd (a + r) - T := by linarith
      have l2 : f.srnd (a + r) - T ≤ b + 10 * (A * ε) := by linarith
      exact ⟨_, hy, fin (size l1 l2) l1 l2
        (srnd_rel hp (by rw [sub_eq_add_neg]; exact multiple_add (binary_mul sL.binary) (multiple_neg (binary_mul hTb))))⟩
    · rw [soft_middle hx sS sL h1 h2]
      have h1 := not_lt.1 h1
      have h2 := not_lt.1 h2
      have l1 : a - 10 * (A * ε) ≤ v := by linarith
      have l2 : v ≤ b + 10 * (A * ε) := by linarith
      exact ⟨v, hx, fin (y := v) (size l1 l2) l1 l2 (by rw [sub_self, abs_zero]; positivity)⟩

/-- Infinite values are clamped to the limits up to rounding errors, and not-a-number is returned as it is. -/
theorem C100_infinite (f : Fmt) (k : Nat) (lo hi s : Flt) (a b c : ℚ) (u : Usable f k lo hi s a b c) :
    (∃ y, Stands f (softClamp f (.inf false) lo hi s) y ∧ |y - b| ≤ 4 * (|a| + |b|) / 2 ^ f.prec) ∧
    (∃ y, Stands f (softClamp f (.inf true) lo hi s) y ∧ |y - a| ≤ 4 * (|a| + |b|) / 2 ^ f.prec) ∧
    ∀ z, softClamp f (.nan z) lo hi s = .nan z := by
  have hf := u.fmt
  have hp := prec_pos hf
  have hk := u.max
  obtain ⟨r, ε, hε, hε0, hε1, hr0, hrk, hrA, hr4, sr, sS, sL, hSk, hLk, hSb, hLa, hSe, hLe⟩ := soft_parts u
  have hab : 0 < b - a := lt_of_lt_of_le (Fmt.pow_pos _) u.width
  have K : ∀ {q : ℚ} {j : Nat}, j ≤ 2 * k + 8 → |q| ≤ 2 ^ j → |q| ≤ f.maxVal := fun hj h =>
    (h.trans (pow_le_pow_right₀ (by norm_num) hj)).trans hk
  have e2 : (2 : ℚ) ^ (k + 2) = 4 * 2 ^ k := by rw [pow_add]; ring
  have e1 : (2 : ℚ) ^ (k + 1) = 2 * 2 ^ k := by rw [pow_add]; ring
  have hone : (1 : ℚ) ≤ 2 ^ k := one_le_pow₀ (by norm_num)
  rw [e1] at hSk hLk
  have hSk' := abs_le.1 hSk
  have hLk' := abs_le.1 hLk
  have hdivA : ∀ q : ℚ, q / 2 ^ f.prec = q * ε := fun q => by rw [hε]; ring
  have hA1 := abs_le.1 (le_refl |a|)
  have hB1 := abs_le.1 (le_refl |b|)
  have hAε : 0 ≤ (|a| + |b|) * ε := by positivity
  have hε' : (|a| + |b|) * ε ≤ (|a| + |b|) * (1 / 1000) := by gcongr
  have hab0 : 0 ≤ |a| + |b| := by positivity
  -- the part that approaches the limit is all of it
  have hrr : |r * r| ≤ 2 ^ (2 * k) := by
    rw [abs_of_nonneg (mul_nonneg hr0 hr0), two_mul, pow_add]
    exact mul_le_mul hrk hrk hr0 (by positivity)
  have sT : Stands f (limitTransfer f (.inf false) (f.mul s (f.sub hi lo))) r := by
    have sq := mul_stands hf sr sr (K (by omega) hrr)
    unfold limitTransfer
    obtain ⟨n, m, hm, hm'⟩ := sr.fin
    obtain ⟨n', m', hq, hq'⟩ := sq.fin
    have h1 : f.add (.inf false) (f.mul s (f.sub hi lo)) = .inf false := by rw [hm]; rfl
    have h2 : ∃ z, f.div (f.mul (f.mul s (f.sub hi lo)) (f.mul s (f.sub hi lo))) (.inf false) = .fin z 0 := by
      rw [hq]; exact ⟨_, rfl⟩
    obtain ⟨z, h2⟩ := h2
    have s0 : Stands f (.fin z 0) 0 := ⟨⟨le_refl _, (by positivity : (0 : ℚ) ≤ 2 ^ (2 * k + 8)).trans hk, 0, f.emin, by simp, le_refl _, by simp⟩, by cases z <;> simp [Flt.pos]⟩
    rw [h1, h2]
    have := sub_stands hf sr s0 (K (j := k) (by omega) (by rw [sub_zero, abs_of_nonneg hr0]; exact hrk))
    rwa [sub_zero, Fmt.srnd_self hp sr.binary] at this
  refine ⟨?_, ?_, ?_⟩
  · have hlt : (f.sub hi (f.mul s (f.sub hi lo))).lt (.inf false) = true := by
      obtain ⟨n, m, hm, -⟩ := sS.fin
      rw [hm]; rfl
    unfold softClamp
    dsimp only
    rw [if_pos hlt]
    have h1 : f.add (f.sub (.inf false) hi) (f.mul s (f.sub hi lo)) = .inf false := by
      obtain ⟨n, m, hm, -⟩ := sr.fin
      obtain ⟨n', m', hm', -⟩ := u.hi.fin
      rw [hm, hm']; rfl
    rw [h1]
    have hy := add_stands hf sS sT (K (j := k + 2) (by omega) (by rw [abs_le, e2]; constructor <;> linarith))
    refine ⟨_, hy, ?_⟩
    have he := srnd_rel (f := f) hp (q := f.srnd (b - r) + r) (multiple_add (binary_mul sS.binary) (binary_mul sr.binary))
    rw [hdivA] at he ⊢
    have hq : |f.srnd (b - r) + r| ≤ 2 * (|a| + |b|) := by
      have := abs_le.1 hSe
      rw [abs_le]; constructor <;> linarith [abs_nonneg a, abs_nonneg b]
    have h5 : |f.srnd (b - r) + r| * ε ≤ 2 * (|a| + |b|) * ε := by gcongr
    have h6 := abs_le.1 (he.trans h5)
    have h7 := abs_le.1 hSe
    rw [abs_le]; constructor <;> linarith
  · have hlt : ¬ (f.sub hi (f.mul s (f.sub hi lo))).lt (.inf true) = true := by
      obtain ⟨n, m, hm, -⟩ := sS.fin
      rw [hm]; exact Bool.false_ne_true
    have hlt' : (Flt.inf true).lt (f.add lo (f.mul s (f.sub hi lo))) = true := by
      obtain ⟨n, m, hm, -⟩ := sL.fin
      rw [hm]; rfl
    unfold softClamp
    dsimp only
    rw [if_neg hlt, if_pos hlt']
    have h1 : f.sub (f.add lo (f.mul s (f.sub hi lo))) (.inf true) = .inf false := by
      obtain ⟨n, m, hm, -⟩ := sL.fin
      rw [hm]; rfl
    rw [h1]
    have hy := sub_stands hf sL sT (K (j := k + 2) (by omega) (by rw [abs_le, e2]; constructor <;> linarith))
    refine ⟨_, hy, ?_⟩
    have he := srnd_rel (f := f) hp (q := f.srnd (a + r) - r)
      (by rw [sub_eq_add_neg]; exact multiple_add (binary_mul sL.binary) (multiple_neg (binary_mul sr.binary)))
    rw [hdivA] at he ⊢
    have hq : |f.srnd (a + r) - r| ≤ 2 * (|a| + |b|) := by
      have := abs_le.1 hLe
      rw [abs_le]; constructor <;> linarith [abs_nonneg a, abs_nonneg b]
    have h5 : |f.srnd (a + r) - r| * ε ≤ 2 * (|a| + |b|) * ε := by gcongr
    have h6 := abs_le.1 (he.trans h5)
    have h7 := abs_le.1 hLe
    rw [abs_le]; constructor <;> linarith
  · intro z
    unfold softClamp
    dsimp only
    obtain ⟨n, m, hm, -⟩ := sS.fin
    obtain ⟨n', m', hm', -⟩ := sL.fin
    rw [hm, hm']
    rfl

/-- Values in the middle part, by more than a rounding error, are returned as they are. -/
theorem C100_middle (f : Fmt) (k : Nat) (x lo hi s : Flt) (v a b c : ℚ) (u : Usable f k lo hi s a b c) (hx : Stands f x v)
    (h1 : a + c * (b - a) + 8 * (|a| + |b|) / 2 ^ f.prec ≤ v) (h2 : v ≤ b - c * (b - a) - 8 * (|a| + |b|) / 2 ^ f.prec) :
    softClamp f x lo hi s = x := by
  obtain ⟨r, ε, hε, hε0, hε1, hr0, hrk, hrA, hr4, sr, sS, sL, hSk, hLk, hSb, hLa, hSe, hLe⟩ := soft_parts u
  have hdivA : ∀ q : ℚ, q / 2 ^ f.prec = q * ε := fun q => by rw [hε]; ring
  rw [hdivA] at h1 h2
  have hAn : 0 ≤ (|a| + |b|) * ε := by positivity
  have hlin := abs_le.1 hSe
  have hlin' := abs_le.1 hLe
  exact soft_middle hx sS sL (not_lt.2 (by linarith)) (not_lt.2 (by linarith))

/-- Within the upper part the result grows with the value. (Missing: across the border of the middle part, `C100_monotone_refuted`.) -/
theorem C100_monotone_upper_partial (f : Fmt) (k : Nat) (x x' lo hi s : Flt) (v v' a b c : ℚ) (u : Usable f k lo hi s a b c)
    (hx : Stands f x v) (hx' : Stands f x' v') (hv : |v| ≤ 2 ^ k) (hv' : |v'| ≤ 2 ^ k) (h : v ≤ v')
    (h1 : Below (f.sub hi (f.mul s (f.sub hi lo))) x) :
    AtMost (softClamp f x lo hi s) (softClamp f x' lo hi s) := by
  have hp := prec_pos u.fmt
  obtain ⟨r, ε, hε, hε0, hε1, hr0, hrk, hrA, hr4, sr, sS, sL, hSk, hLk, hSb, hLa, hSe, hLe⟩ := soft_parts u
  have h2 : f.srnd (b - r) < v := (lt_stands sS hx).1 (lt_iff.2 h1)
  obtain ⟨T, hT, hy, -, -, -, hD⟩ := soft_upper u hx hv hr0 hrk sr sS hSk h2
  obtain ⟨T', hT', hy', -, -, -, -⟩ := soft_upper u hx' hv' hr0 hrk sr sS hSk (by linarith)
  rw [← le_iff, le_stands hy hy']
  have h3 : f.srnd (v - b) ≤ f.srnd (v' - b) := Fmt.srnd_mono hp (by linarith)
  have h4 : f.srnd (f.srnd (v - b) + r) ≤ f.srnd (f.srnd (v' - b) + r) := Fmt.srnd_mono hp (by linarith)
  have h5 := approach_mono u.fmt hr0 h4 hD
  rw [← hT, ← hT'] at h5
  exact Fmt.srnd_mono hp (by linarith)

/-- Within the lower part the result grows with the value. -/
theorem C100_monotone_lower_partial (f : Fmt) (k : Nat) (x x' lo hi s : Flt) (v v' a b c : ℚ) (u : Usable f k lo hi s a b c)
    (hx : Stands f x v) (hx' : Stands f x' v') (hv : |v| ≤ 2 ^ k) (hv' : |v'| ≤ 2 ^ k) (h : v ≤ v')
    (h1 : Below x' (f.add lo (f.mul s (f.sub hi lo)))) (h2 : AtMost x' (f.sub hi (f.mul s (f.sub hi lo)))) :
    AtMost (softClamp f x lo hi s) (softClamp f x' lo hi s) := by
  have hp := prec_pos u.fmt
  obtain ⟨r, ε, hε, hε0, hε1, hr0, hrk, hrA, hr4, sr, sS, sL, hSk, hLk, hSb, hLa, hSe, hLe⟩ := soft_parts u
  have h3 : v' < f.srnd (a + r) := (lt_stands hx' sL).1 (lt_iff.2 h1)
  have h4 : v' ≤ f.srnd (b - r) := (le_stands hx' sS).1 (le_iff.2 h2)
  obtain ⟨T, hT, hy, -, -, -, -⟩ := soft_lower u hx hv hr0 hrk sr sS sL hLk (by linarith) (by linarith)
  obtain ⟨T', hT', hy', -, -, -, hD⟩ := soft_lower u hx' hv' hr0 hrk sr sS sL hLk (by linarith) h3
  rw [← le_iff, le_stands hy hy']
  have h5 : f.srnd (f.srnd (a + r) - v') ≤ f.srnd (f.srnd (a + r) - v) := Fmt.srnd_mono hp (by linarith)
  have h6 := approach_mono u.fmt hr0 h5 hD
  rw [← hT, ← hT'] at h6
  exact Fmt.srnd_mono hp (by linarith)

/-- The range from 0 to 10 with a soft part of one quarter is usable, up to 2 to the power 500. -/
theorem usable_example : Usable .double 500 (.fin false 0) (.fin false 10) (.fin false (1 / 4)) 0 10 (1 / 4) where
  fmt := .inl rfl
  max := by decide +kernel
  lo := by simpa using stands_double false (n := 0) (e := 0) (by norm_num) (by norm_num)
  hi := by simpa using stands_double false (n := 10) (e := 0) (by norm_num) (by norm_num)
  soft := by simpa [show (2 : ℚ) ^ 2 = 4 by norm_num] using stands_double false (n := 1) (e := 2) (by norm_num) (by norm_num)
  lower := by norm_num
  upper := by rw [abs_of_nonneg (by norm_num)]; exact le_trans (by norm_num) (pow_le_pow_right₀ (by norm_num) (show 4 ≤ 500 by norm_num))
  nonneg := by norm_num
  half := by norm_num
  width := by decide +kernel

example : softClamp .double (.fin false 5) (.fin false 0) (.fin false 10) (.fin false (1 / 4)) = .fin false 5 ∧
    softClamp .double (.fin false 10) (.fin false 0) (.fin false 10) (.fin false (1 / 4)) = .fin false (35 / 4) := by decide +kernel

example : softClamp .double (.inf false) (.fin false 0) (.fin false 10) (.fin false (1 / 4)) = .fin false 10 := by decide +kernel

example : Below (Fmt.double.sub (.fin false 10) (Fmt.double.mul (.fin false (1 / 4)) (Fmt.double.sub (.fin false 10) (.fin false 0)))) (.fin false 9) ∧
    Below (.fin false 1) (Fmt.double.add (.fin false 0) (Fmt.double.mul (.fin false (1 / 4)) (Fmt.double.sub (.fin false 10) (.fin false 0)))) ∧
    AtMost (.fin false 1) (Fmt.double.sub (.fin false 10) (Fmt.double.mul (.fin false (1 / 4)) (Fmt.double.sub (.fin false 10) (.fin false 0)))) :=
  ⟨lt_iff.1 (by decide +kernel), lt_iff.1 (by decide +kernel), le_iff.1 (by decide +kernel)⟩

end Flut
