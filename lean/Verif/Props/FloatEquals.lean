import Verif.Proofs.FloatOps

/-! # C102: comparison with a tolerance, and the square wave, in floating-point arithmetic -/

namespace Flut

open Spec FloatMath

/-- What is compared. -/
theorem equals_iff {f : Fmt} (hf : f = .double ∨ f = .single) {x y t : Flt} {a b e : ℚ} (hx : Stands f x a) (hy : Stands f y b)
    (ht : Stands f t e) (h0 : 0 ≤ e) (h1 : e ≤ 1) : equals f x y t = true ↔ f.rnd |a - b| ≤ f.rnd (|a| * e) := by
  have hp := prec_pos hf
  have hxa := hx.abs_le
  have hbx := hx.binary
  obtain ⟨s, m, rfl, rfl⟩ := hx.fin
  obtain ⟨s', m', rfl, rfl⟩ := hy.fin
  have hm : 0 ≤ m := hx.1.1
  have hv : |(Flt.fin s m).val| = m := by
    cases s <;> simp [Flt.val, abs_of_nonneg hm]
  rw [hv] at hxa ⊢
  have hab : Stands f (Flt.fin s m).abs m := ⟨hx.1, rfl⟩
  have hme : |m * e| ≤ f.maxVal := by
    rw [abs_of_nonneg (mul_nonneg hm h0)]
    exact (mul_le_of_le_one_right hm h1).trans hxa
  have hmul := mul_stands hf hab ht hme
  unfold equals
  rw [sub_fin]
  generalize (Flt.fin s m).val - (Flt.fin s' m').val = q
  have hr : f.srnd (m * e) = f.rnd (m * e) := Fmt.srnd_nonneg (mul_nonneg hm h0)
  by_cases hF : f.Fits q
  · obtain ⟨e1, -⟩ := Fmt.result_fits (z := s && !s') hF
    rw [e1]
    have hs : Stands f (Flt.fin false |f.srnd q|) (f.rnd |q|) := by
      refine ⟨⟨abs_nonneg _, hF, isBinary_abs (Fmt.srnd_nearest hp q).1⟩, ?_⟩
      rw [Fmt.abs_srnd]; rfl
    show (Flt.fin false |f.srnd q|).le _ = true ↔ _
    rw [le_stands hs hmul, hr]
  · rw [Fmt.result_over hF]
    obtain ⟨s3, m3, h3, h4⟩ := hmul.fin
    rw [h3]
    refine ⟨fun h => (by cases h), fun h => absurd ?_ hF⟩
    unfold Fmt.Fits
    rw [Fmt.abs_srnd]
    refine h.trans ?_
    rw [← hr]
    exact (le_abs_self _).trans (fits_of_le hf hme)

/-- Numbers that differ by at most the given fraction of the first one are taken to be equal. -/
theorem C102_equals_complete (f : Fmt) (hf : f = .double ∨ f = .single) (x y t : Flt) (a b e : ℚ) (hx : Stands f x a) (hy : Stands f y b)
    (ht : Stands f t e) (h0 : 0 ≤ e) (h1 : e ≤ 1) (h : |a - b| ≤ |a| * e) : equals f x y t = true :=
  (equals_iff hf hx hy ht h0 h1).2 (Fmt.rnd_mono (prec_pos hf) (abs_nonneg _) h)

/-- Numbers that are taken to be equal differ by at most that fraction, up to a rounding error. (That there is no rounding error is
false, `C102_equals_exact_refuted`.) -/
theorem C102_equals_sound (f : Fmt) (hf : f = .double ∨ f = .single) (x y t : Flt) (a b e : ℚ) (hx : Stands f x a) (hy : Stands f y b)
    (ht : Stands f t e) (h0 : 0 ≤ e) (h1 : e ≤ 1) (h : equals f x y t = true) :
    |a - b| ≤ |a| * e * (1 + 3 / 2 ^ f.prec) + 2 ^ f.emin := by
  rw [equals_iff hf hx hy ht h0 h1] at h
  have hp := prec_pos hf
  have h2 := srnd_rel (f := f) hp (q := a - b)
    (by rw [sub_eq_add_neg]; exact multiple_add (binary_mul hx.binary) (multiple_neg (binary_mul hy.binary)))
  have h3 := srnd_err (f := f) (|a| * e)
  have hP : 0 ≤ |a| * e := mul_nonneg (abs_nonneg _) h0
  have ht : (0 : ℚ) < 2 ^ f.emin := Fmt.pow_pos _
  rw [Fmt.srnd_nonneg hP, abs_of_nonneg hP] at h3
  have h4 : |a - b| - f.rnd |a - b| ≤ |a - b| / 2 ^ f.prec := by
    rw [← Fmt.abs_srnd]
    refine (abs_sub_abs_le_abs_sub _ _).trans ?_
    rwa [abs_sub_comm]
  obtain ⟨ε, hε⟩ : ∃ ε : ℚ, ε = 1 / 2 ^ f.prec := ⟨_, rfl⟩
  have hd : ∀ a : ℚ, a / 2 ^ f.prec = a * ε := fun a => by rw [hε]; ring
  have hε0 : 0 < ε := by rw [hε]; positivity
  have hε1 : ε ≤ 1 / 1000 := by
    rw [hε]; rcases hf with rfl | rfl <;> norm_num [Fmt.double, Fmt.single]
  rw [hd] at h3 h4 ⊢
  have h5 := (abs_le.1 h3).2
  generalize f.rnd |a - b| = u at *
  generalize f.rnd (|a| * e) = w at *
  generalize |a| * e = P at *
  generalize |a - b| = D at *
  generalize (2 : ℚ) ^ f.emin = t at *
  -- `D (1 - ε) ≤ P (1 + ε) + t / 2`
  have h6 : D * (1 - ε) ≤ P * (1 + ε) + t / 2 := by linarith
  have h7 : (P * (1 + 3 * ε) + t) * (1 - ε) ≥ P * (1 + ε) + t / 2 := by
    have h8 : 0 ≤ P * ε := by positivity
    have h9 : P * ε * ε ≤ P * ε * (1 / 1000) := mul_le_mul_of_nonneg_left hε1 h8
    have h10 : t * ε ≤ t * (1 / 1000) := mul_le_mul_of_nonneg_left hε1 ht.le
    nlinarith
  exact le_of_mul_le_mul_right (h6.trans h7) (by linarith)

/-- Every finite number equals itself, zero equals only zero, and infinities and not-a-number equal nothing, not even themselves. -/
theorem C102_equals_special (f : Fmt) (hf : f = .double ∨ f = .single) (x y t : Flt) (a b e : ℚ) (hx : Stands f x a) (hy : Stands f y b)
    (ht : Stands f t e) (h0 : 0 ≤ e) (h1 : e ≤ 1) :
    equals f x x t = true ∧ (a = 0 → (equals f x y t = true ↔ b = 0)) ∧
    (∀ s z, equals f (.nan s) z t = false ∧ equals f z (.nan s) t = false) ∧
    (∀ s, equals f (.inf s) (.inf s) t = false) ∧ (∀ s, equals f x (.inf s) t = false) := by
  have hp := prec_pos hf
  refine ⟨C102_equals_complete f hf x x t a a e hx hx ht h0 h1 (by rw [sub_self, abs_zero]; exact mul_nonneg (abs_nonneg _) h0), ?_, ?_, ?_, ?_⟩
  · rintro rfl
    rw [equals_iff hf hx hy ht h0 h1, abs_zero, zero_mul, Fmt.rnd_zero, zero_sub, abs_neg]
    constructor
    · intro h
      by_contra hb
      have h2 : 0 < |b| + 0 := by rw [add_zero]; exact abs_pos.2 hb
      have h3 := srnd_sum_pos hp (isBinary_abs hy.binary) (zero_binary f) h2
      rw [add_zero, Fmt.srnd_nonneg (abs_nonneg _)] at h3
      exact absurd h (not_le.2 h3)
    · rintro rfl
      rw [abs_zero, Fmt.rnd_zero]
  · intro s z
    constructor
    · cases z <;> rfl
    · cases z <;> rfl
  · intro s
    cases s <;> rfl
  · intro s
    obtain ⟨s', m', rfl, -⟩ := hx.fin
    obtain ⟨s3, m3, rfl, -⟩ := ht.fin
    have : ∀ q z, (Flt.inf false).le (f.result z q) = true → f.result z q = .inf false := by
      intro q z h
      cases e : f.result z q with
      | fin _ _ => rw [e] at h; cases h
      | inf s => rw [e] at h; cases s <;> simp_all [Flt.le]
      | nan _ => rw [e] at h; cases h
    have hab : Stands f (Flt.fin s' m').abs m' := ⟨hx.1, rfl⟩
    have hm : 0 ≤ m' := hx.1.1
    have hme : |m' * e| ≤ f.maxVal := by
      rw [abs_of_nonneg (mul_nonneg hm h0)]
      exact (mul_le_of_le_one_right hm h1).trans hx.1.2.1
    obtain ⟨s4, m4, h4, -⟩ := (mul_stands hf hab ht hme).fin
    unfold equals
    rw [h4]
    rfl

/-- A concrete tolerance: the default one. -/
theorem default_stands (f : Fmt) (hf : f = .double ∨ f = .single) : Stands f (relaxedEpsilon f) (4 * 2 ^ (1 - (f.prec : Int))) := by
  rcases hf with rfl | rfl
  · exact ⟨⟨by decide +kernel, by decide +kernel, 1, -50, by decide, by decide, by decide +kernel⟩, rfl⟩
  · exact ⟨⟨by decide +kernel, by decide +kernel, 1, -21, by decide, by decide, by decide +kernel⟩, rfl⟩

example : equals .double (.fin false 1) (.fin false (1 + 1 / 2 ^ 50)) (relaxedEpsilon .double) = true ∧
    equals .double (.fin false 1) (.fin false (1 + 1 / 2 ^ 49)) (relaxedEpsilon .double) = false := by decide +kernel

/-- With a tolerance that is not a power of two, rounding may make numbers equal that differ by more. -/
theorem C102_equals_exact_refuted : ∃ e : ℚ, Stands .double (.fin false e) e ∧ (3 : ℚ) * e < |3 - 2| ∧
    equals .double (.fin false 3) (.fin false 2) (.fin false e) = true :=
  ⟨6004799503160661 / 2 ^ 54, by simpa using stands_double false (n := 6004799503160661) (e := 54) (by norm_num) (by norm_num),
    by norm_num, by decide +kernel⟩

/-- Differences of numbers that are near each other are exact. -/
theorem near_binary {p : Nat} {e : Int} {a b : ℚ} (ha : IsBinary p e a) (hb : IsBinary p e b) (h : |a - b| ≤ |a| / 2) :
    IsBinary p e (a - b) := by
  have h1 : |a - b| ≤ |a| := h.trans (by linarith [abs_nonneg a])
  have h2 : |a - b| ≤ |b| := by
    have := abs_sub_abs_le_abs_sub a b
    linarith
  obtain ⟨m, i, hm, hi, rfl⟩ := ha
  obtain ⟨n, j, hn, hj, rfl⟩ := hb
  have key : ∀ {m n i j : Int}, i ≤ j → ∃ k : Int, (n : ℚ) * 2 ^ j = k * 2 ^ i := by
    intro m n i j h
    refine ⟨n * 2 ^ (j - i).toNat, ?_⟩
    push_cast
    rw [← zpow_natCast, Int.toNat_of_nonneg (by omega), mul_assoc, ← zpow_add₀ (by norm_num)]
    congr 2
    omega
  have size : ∀ {k m i : Int}, |m| < 2 ^ p → |(k : ℚ) * 2 ^ i| ≤ |(m : ℚ) * 2 ^ i| → |k| < 2 ^ p := by
    intro k m i hm h
    have h0 := Fmt.pow_pos i
    rw [abs_mul, abs_mul, abs_of_pos h0] at h
    have : |(k : ℚ)| ≤ |(m : ℚ)| := le_of_mul_le_mul_right h h0
    have : |k| ≤ |m| := by exact_mod_cast this
    omega
  rcases le_total i j with hij | hij
  · obtain ⟨k, hk⟩ := key (m := 0) (n := n) hij
    rw [hk, ← sub_mul] at h1 ⊢
    have e1 : ((m : ℚ) - k) = ((m - k : Int) : ℚ) := by push_cast; ring
    rw [e1] at h1 ⊢
    exact ⟨m - k, i, size hm h1, hi, rfl⟩
  · obtain ⟨k, hk⟩ := key (m := 0) (n := m) hij
    rw [hk, ← sub_mul] at h2 ⊢
    have e1 : ((k : ℚ) - n) = ((k - n : Int) : ℚ) := by push_cast; ring
    rw [e1] at h2 ⊢
    exact ⟨k - n, j, size hn h2, hj, rfl⟩

/-- With the default tolerance the comparison is exact, except near the least numbers of the format. -/
theorem C102_default_exact (f : Fmt) (hf : f = .double ∨ f = .single) (x y : Flt) (a b : ℚ) (hx : Stands f x a) (hy : Stands f y b)
    (h : 2 ^ (f.emin + 2 * f.prec) ≤ |a|) :
    equals f x y (relaxedEpsilon f) = true ↔ |a - b| ≤ |a| * (4 * 2 ^ (1 - (f.prec : Int))) := by
  have hp := prec_pos hf
  have he0 : (0 : ℚ) ≤ 4 * 2 ^ (1 - (f.prec : Int)) := by have := Fmt.pow_pos (1 - (f.prec : Int)); positivity
  have he1 : (4 * 2 ^ (1 - (f.prec : Int)) : ℚ) ≤ 1 / 4 := by
    rcases hf with rfl | rfl <;> decide +kernel
  rw [equals_iff hf hx hy (default_stands f hf) he0 (by linarith)]
  refine ⟨fun h1 => ?_, fun h1 => Fmt.rnd_mono hp (abs_nonneg _) h1⟩
  have hP0 : 0 ≤ |a| * (4 * 2 ^ (1 - (f.prec : Int))) := mul_nonneg (abs_nonneg _) he0
  have hP : IsBinary f.prec f.emin (|a| * (4 * 2 ^ (1 - (f.prec : Int)))) := by
    obtain ⟨m, i, hm, hi, ha⟩ := isBinary_abs hx.binary
    refine ⟨m, i + 3 - f.prec, hm, ?_, ?_⟩
    · by_contra hc
      have h2 : (2 : ℚ) ^ i ≤ 2 ^ (f.emin + f.prec) := zpow_le_zpow_right₀ (by norm_num) (by omega)
      have h3 : (m : ℚ) < 2 ^ f.prec := by
        have := (abs_lt.1 hm).2
        exact_mod_cast this
      rw [ha] at h
      have h4 : (m : ℚ) * 2 ^ i < 2 ^ f.prec * 2 ^ (f.emin + f.prec) := by
        have h5 := Fmt.pow_pos i
        calc (m : ℚ) * 2 ^ i < 2 ^ f.prec * 2 ^ i := mul_lt_mul_of_pos_right h3 h5
          _ ≤ _ := mul_le_mul_of_nonneg_left h2 (by positivity)
      have e : (2 : ℚ) ^ (f.emin + 2 * f.prec) = 2 ^ f.prec * 2 ^ (f.emin + f.prec) := by
        rw [← zpow_natCast, ← zpow_add₀ (by norm_num)]
        congr 1
        ring
      rw [e] at h
      linarith
    · rw [ha]
      have e : (2 : ℚ) ^ (i + 3 - (f.prec : Int)) = 2 ^ i * (4 * 2 ^ (1 - (f.prec : Int))) := by
        rw [show i + 3 - (f.prec : Int) = i + (2 + (1 - f.prec)) by ring, zpow_add₀ (by norm_num), zpow_add₀ (by norm_num)]
        norm_num
      rw [e]
      ring
  rw [Fmt.rnd_self f hp hP0 hP] at h1
  by_cases h2 : |a - b| ≤ |a| / 2
  · have hb := isBinary_abs (near_binary hx.binary hy.binary h2)
    rwa [Fmt.rnd_self f hp (abs_nonneg _) hb] at h1
  · exfalso
    have h3 : |a| / 2 < |a - b| := not_le.1 h2
    have hb : IsBinary f.prec f.emin (2 * (|a| * (4 * 2 ^ (1 - (f.prec : Int))))) := binary_double hP
    have h4 : 2 * (|a| * (4 * 2 ^ (1 - (f.prec : Int)))) ≤ f.rnd |a - b| := by
      rw [← Fmt.srnd_nonneg (abs_nonneg _)]
      refine Fmt.le_srnd hp hb ?_
      have := mul_le_mul_of_nonneg_left he1 (abs_nonneg a)
      linarith
    have h5 : 0 < |a| := lt_of_lt_of_le (Fmt.pow_pos _) h
    have h6 : 0 < |a| * (4 * 2 ^ (1 - (f.prec : Int))) := by have := Fmt.pow_pos (1 - (f.prec : Int)); positivity
    linarith

/-- The square wave is exact for every finite number that is not negative: 1 in the first half of each period, -1 in the second. -/
theorem C102_square_wave (f : Fmt) (hf : f = .double ∨ f = .single) (x : Flt) (a : ℚ) (hx : Stands f x a) (h : 0 ≤ a) :
    ((∃ n : Nat, 2 * n ≤ a ∧ a < 2 * n + 1) → squareWave x = .fin false 1) ∧
    ((∃ n : Nat, 2 * n + 1 ≤ a ∧ a < 2 * n + 2) → squareWave x = .fin true 1) := by
  have h2 : Stands f (.fin false 2) 2 := by
    rcases hf with rfl | rfl
    · exact ⟨⟨by norm_num, by decide +kernel, 1, 1, by decide, by decide, by norm_num⟩, rfl⟩
    · exact ⟨⟨by norm_num, by decide +kernel, 1, 1, by decide, by decide, by norm_num⟩, rfl⟩
  have h1 : Stands f (.fin false 1) 1 := by
    rcases hf with rfl | rfl
    · exact ⟨⟨by norm_num, by decide +kernel, 1, 0, by decide, by decide, by norm_num⟩, rfl⟩
    · exact ⟨⟨by norm_num, by decide +kernel, 1, 0, by decide, by decide, by norm_num⟩, rfl⟩
  obtain ⟨k, hk, hk1, hk2, -⟩ := fmod_stands hx h2 (by norm_num)
  obtain ⟨hk3, -⟩ := hk2 h
  rw [abs_of_nonneg hk3] at hk1
  have same : ∀ n : Nat, 2 * (n : ℚ) ≤ a → a < 2 * n + 2 → k = n := by
    intro n h3 h4
    have h5 : (k : ℚ) < ((n + 1 : Int) : ℚ) := by push_cast; linarith
    have h6 : ((n : Int) : ℚ) < ((k + 1 : Int) : ℚ) := by push_cast; linarith
    have h5 : k < n + 1 := by exact_mod_cast h5
    have h6 : (n : Int) < k + 1 := by exact_mod_cast h6
    omega
  unfold squareWave
  constructor
  · rintro ⟨n, h3, h4⟩
    have := same n h3 (by linarith)
    subst this
    rw [if_pos ((lt_stands hk h1).2 (by push_cast; linarith))]
  · rintro ⟨n, h3, h4⟩
    have := same n (by linarith) (by linarith)
    subst this
    rw [if_neg (by rw [lt_stands hk h1]; push_cast; linarith)]

/-- For negative numbers the wave is always 1, and for infinities and not-a-number -1: it has no period there. -/
theorem C102_square_wave_refuted (f : Fmt) (hf : f = .double ∨ f = .single) (x : Flt) (a : ℚ) (hx : Stands f x a) (h : a < 0) :
    squareWave x = .fin false 1 ∧ (∀ s, squareWave (.inf s) = .fin true 1) ∧ ∀ s, squareWave (.nan s) = .fin true 1 := by
  refine ⟨?_, fun s => by cases s <;> rfl, fun s => by cases s <;> rfl⟩
  have h2 : Stands f (.fin false 2) 2 := by
    rcases hf with rfl | rfl
    · exact ⟨⟨by norm_num, by decide +kernel, 1, 1, by decide, by decide, by norm_num⟩, rfl⟩
    · exact ⟨⟨by norm_num, by decide +kernel, 1, 1, by decide, by decide, by norm_num⟩, rfl⟩
  have h1 : Stands f (.fin false 1) 1 := by
    rcases hf with rfl | rfl
    · exact ⟨⟨by norm_num, by decide +kernel, 1, 0, by decide, by decide, by norm_num⟩, rfl⟩
    · exact ⟨⟨by norm_num, by decide +kernel, 1, 0, by decide, by decide, by norm_num⟩, rfl⟩
  obtain ⟨k, hk, -, -, hk2⟩ := fmod_stands hx h2 (by norm_num)
  unfold squareWave
  rw [if_pos ((lt_stands hk h1).2 (by linarith [(hk2 h.le).1]))]

example : squareWave (.fin false (5 / 2)) = .fin false 1 ∧ squareWave (.fin false (7 / 2)) = .fin true 1 ∧
    squareWave (.fin true (1 / 2)) = .fin false 1 := by decide +kernel

end Flut
