import Verif.Proofs.FloatOps

/-! # C99: `wrap` in floating-point arithmetic -/

namespace Flut

open Spec FloatMath

/-- A number of the format below the rounded value of another number is not above that number itself. -/
theorem le_of_lt_srnd {f : Fmt} (hp : 1 ≤ f.prec) {r d : ℚ} (hr : IsBinary f.prec f.emin r) (h : r < f.srnd d) : r ≤ d := by
  by_contra hc
  exact absurd (Fmt.srnd_le hp hr (not_le.1 hc).le) (not_le.2 h)

theorem abs_le_of_between {a b y : ℚ} {M : ℚ} (ha : |a| ≤ M) (hb : |b| ≤ M) (h1 : a ≤ y) (h2 : y ≤ b) : |y| ≤ M := by
  have := abs_le.1 ha
  have := abs_le.1 hb
  rw [abs_le]; constructor <;> linarith

theorem zero_le_stands {f : Fmt} {x : Flt} {q : ℚ} (h : Stands f x q) : ((Flt.fin false 0).le x = true) ↔ 0 ≤ q := by
  obtain ⟨s, m, rfl, rfl⟩ := h.fin
  rw [le_iff, atMost_fin]
  simp [Flt.val]

/-- What is computed, step by step. -/
theorem wrap_steps {f : Fmt} (hf : f = .double ∨ f = .single) {x lo hi : Flt} {v l u : ℚ} (hx : Stands f x v) (hl : Stands f lo l)
    (hu : Stands f hi u) (hlu : l < u) (hw : u - l ≤ f.maxVal) (hd : |v - l| ≤ f.maxVal) :
    ∃ (k : Int) (r e : ℚ), r = f.srnd (v - l) - k * f.srnd (u - l) ∧ |r| < f.srnd (u - l) ∧ IsBinary f.prec f.emin r ∧
      ((l ≤ v ∧ e = l ∧ 0 ≤ r ∧ r ≤ f.srnd (v - l)) ∨ (v < l ∧ e = u ∧ r ≤ 0)) ∧ l ≤ r + e ∧ r + e ≤ u ∧
      Stands f (wrap f x lo hi) (f.srnd (r + e)) := by
  have hp := prec_pos hf
  have s1 := sub_stands hf hx hl hd
  have s2 := sub_stands hf hu hl (by rw [abs_of_nonneg (by linarith)]; exact hw)
  have hwpos : 0 < f.srnd (u - l) := by
    have := srnd_sum_pos hp hu.binary (Fmt.isBinary_neg hl.binary) (by linarith)
    rwa [← sub_eq_add_neg] at this
  obtain ⟨k, s3, hlt, hnn, hnp⟩ := fmod_stands s1 s2 hwpos
  set r := f.srnd (v - l) - k * f.srnd (u - l) with hr
  have hrb := s3.binary
  have hle : |r| ≤ u - l := le_of_lt_srnd hp (isBinary_abs hrb) hlt
  have hb := abs_le.1 hle
  unfold wrap
  rcases le_or_gt l v with hv | hv
  · have h0 : 0 ≤ f.srnd (v - l) := by rw [Fmt.srnd_nonneg (by linarith)]; exact Fmt.rnd_nonneg f (by linarith)
    obtain ⟨h1, h2⟩ := hnn h0
    rw [if_pos ((zero_le_stands s1).2 h0)]
    refine ⟨k, r, l, rfl, hlt, hrb, .inl ⟨hv, rfl, h1, h2⟩, by linarith, by linarith, ?_⟩
    exact add_stands hf s3 hl (abs_le_of_between hl.abs_le hu.abs_le (by linarith) (by linarith))
  · have h0 : f.srnd (v - l) < 0 := by
      have := srnd_sum_pos hp hl.binary (Fmt.isBinary_neg hx.binary) (by linarith)
      rw [← sub_eq_add_neg, ← neg_sub, Fmt.srnd_neg] at this
      linarith
    obtain ⟨h1, h2⟩ := hnp h0.le
    rw [if_neg (by rw [zero_le_stands s1]; linarith)]
    refine ⟨k, r, u, rfl, hlt, hrb, .inr ⟨hv, rfl, h1⟩, by linarith, by linarith, ?_⟩
    exact add_stands hf s3 hu (abs_le_of_between hl.abs_le hu.abs_le (by linarith) (by linarith))

/-- For all finite numbers whose differences do not overflow, the result is within the limits, in spite of four roundings. -/
theorem C99_wrap (f : Fmt) (hf : f = .double ∨ f = .single) (x lo hi : Flt) (v l u : ℚ) (hx : Stands f x v) (hl : Stands f lo l)
    (hu : Stands f hi u) (hlu : l < u) (hw : u - l ≤ f.maxVal) (hd : |v - l| ≤ f.maxVal) :
    ∃ y, Stands f (wrap f x lo hi) y ∧ l ≤ y ∧ y ≤ u := by
  obtain ⟨k, r, e, _, _, _, _, h1, h2, hs⟩ := wrap_steps hf hx hl hu hlu hw hd
  exact ⟨_, hs, Fmt.le_srnd (prec_pos hf) hl.binary h1, Fmt.srnd_le (prec_pos hf) hu.binary h2⟩

/-- If the width of the range is a number of the format, the result differs from the value by a whole number of widths, up to two
rounding errors. -/
theorem C99_error (f : Fmt) (hf : f = .double ∨ f = .single) (x lo hi : Flt) (v l u : ℚ) (hx : Stands f x v) (hl : Stands f lo l)
    (hu : Stands f hi u) (hlu : l < u) (hw : u - l ≤ f.maxVal) (hd : |v - l| ≤ f.maxVal) (hb : IsBinary f.prec f.emin (u - l)) :
    ∃ y, Stands f (wrap f x lo hi) y ∧
      ∃ k : Int, |y - (v + k * (u - l))| ≤ |v - l| / 2 ^ f.prec + max |l| |u| / 2 ^ f.prec := by
  obtain ⟨k, r, e, hr, _, hrb, hc, h1, h2, hs⟩ := wrap_steps hf hx hl hu hlu hw hd
  have hp := prec_pos hf
  refine ⟨_, hs, ?_⟩
  have e1 := srnd_rel (f := f) hp (q := v - l) (by rw [sub_eq_add_neg]; exact multiple_add (binary_mul hx.binary) (multiple_neg (binary_mul hl.binary)))
  have heb : IsBinary f.prec f.emin e := by
    rcases hc with ⟨_, rfl, _⟩ | ⟨_, rfl, _⟩
    · exact hl.binary
    · exact hu.binary
  have e2 := srnd_rel (f := f) hp (q := r + e) (multiple_add (binary_mul hrb) (binary_mul heb))
  have e3 : |r + e| ≤ max |l| |u| := abs_le_of_between (le_max_left _ _) (le_max_right _ _) h1 h2
  have e4 : |f.srnd (r + e) - (r + e)| ≤ max |l| |u| / 2 ^ f.prec := e2.trans (by gcongr)
  rw [Fmt.srnd_self hp hb] at hr
  have tri : ∀ {a b A B : ℚ}, |a| ≤ A → |b| ≤ B → |a + b| ≤ A + B := fun ha hb => (abs_add_le _ _).trans (add_le_add ha hb)
  rcases hc with ⟨_, rfl, _⟩ | ⟨_, rfl, _⟩
  · refine ⟨-k, ?_⟩
    have := tri e1 e4
    refine le_trans (le_of_eq ?_) this
    congr 1
    rw [hr]; push_cast; ring
  · refine ⟨1 - k, ?_⟩
    have := tri e1 e4
    refine le_trans (le_of_eq ?_) this
    congr 1
    rw [hr]; push_cast; ring

/-- A value already within the range is unchanged if its difference to the lower limit and the width are numbers of the format. -/
theorem C99_identity_partial (f : Fmt) (hf : f = .double ∨ f = .single) (x lo hi : Flt) (v l u : ℚ) (hx : Stands f x v)
    (hl : Stands f lo l) (hu : Stands f hi u) (hlv : l ≤ v) (hvu : v < u) (hw : u - l ≤ f.maxVal)
    (hb : IsBinary f.prec f.emin (v - l)) (hbw : IsBinary f.prec f.emin (u - l)) : Stands f (wrap f x lo hi) v := by
  have hp := prec_pos hf
  obtain ⟨k, r, e, hr, hlt, hrb, hc, h1, h2, hs⟩ := wrap_steps hf hx hl hu (lt_of_le_of_lt hlv hvu) hw
    (by rw [abs_of_nonneg (by linarith)]; linarith)
  rw [Fmt.srnd_self hp hb] at hr hc
  rcases hc with ⟨_, rfl, h3, h4⟩ | ⟨h, _⟩
  · rw [Fmt.srnd_self hp hbw] at hr hlt
    have hk : k = 0 := by
      by_contra hk
      have hwpos : 0 < u - e := by linarith
      rcases lt_or_gt_of_ne hk with hk | hk
      · have : (k : ℚ) ≤ -1 := by exact_mod_cast (show k ≤ -1 by omega)
        nlinarith
      · have : (1 : ℚ) ≤ k := by exact_mod_cast (show 1 ≤ k by omega)
        nlinarith
    subst hk
    have hrv : r + e = v := by rw [hr]; push_cast; ring
    rw [hrv, Fmt.srnd_self hp hx.binary] at hs
    exact hs
  · linarith

/-- Otherwise it may change: a tenth of a degree, between -180 and 180. -/
theorem C99_identity_refuted : let x := Fmt.double.ofRat (1 / 10)
    Flt.lt (Flt.fin true 180) x = true ∧ x.lt (.fin false 180) = true ∧ wrap .double x (.fin true 180) (.fin false 180) ≠ x := by
  decide +kernel

/-- The result may be the upper limit although no whole number of widths leads there. -/
theorem C99_upper_refuted : wrap .double (.fin true (1 / 2 ^ 60)) (.fin false 0) (.fin false 1) = .fin false 1 := by decide +kernel

/-- If a difference overflows, the result is not a number. -/
theorem C99_overflow_refuted : wrap .double (.fin false Fmt.double.maxVal) (.fin true Fmt.double.maxVal) (.fin false 0) = .nan false := by
  decide +kernel

theorem double_max : (2 : ℚ) ^ 60 ≤ Fmt.double.maxVal := by decide +kernel

example : ∃ y, Stands .double (wrap .double (.fin false 1000) (.fin true 180) (.fin false 180)) y ∧ -180 ≤ y ∧ y ≤ 180 := by
  have h : ∀ (s : Bool) (n : Nat), n < 2 ^ 53 → Stands .double (.fin s n) (if s then -(n : ℚ) else n) := fun s n hn =>
    ⟨⟨by positivity, le_trans (by exact_mod_cast hn.le : (n : ℚ) ≤ 2 ^ 53) (le_trans (by norm_num) double_max), n, 0,
      by rw [abs_of_nonneg (by positivity)]; exact_mod_cast hn, by decide, by simp⟩, rfl⟩
  exact C99_wrap .double (.inl rfl) _ _ _ 1000 (-180) 180 (h false 1000 (by norm_num)) (h true 180 (by norm_num))
    (h false 180 (by norm_num)) (by norm_num) (le_trans (by norm_num) double_max)
    (le_trans (by norm_num [abs_of_nonneg]) double_max)

end Flut
