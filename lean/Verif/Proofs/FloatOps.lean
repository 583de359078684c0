import Verif.Proofs.Float
import Verif.Spec.Float

/-! # Order of floating-point numbers; operations -/

namespace Flut

open Spec

theorem lt_iff {a b : Flt} : a.lt b = true ↔ Below a b := by
  unfold Below
  rcases a with ⟨s, m⟩ | ⟨_ | _⟩ | s <;> rcases b with ⟨s', m'⟩ | ⟨_ | _⟩ | s' <;> simp [Flt.lt, Flt.pos]
  exact WithBot.coe_lt_coe.2 (WithTop.coe_lt_top _)

theorem le_iff {a b : Flt} : a.le b = true ↔ AtMost a b := by
  unfold AtMost
  rcases a with ⟨s, m⟩ | ⟨_ | _⟩ | s <;> rcases b with ⟨s', m'⟩ | ⟨_ | _⟩ | s' <;> simp [Flt.le, Flt.pos]

theorem Spec.IsNumber.refl {a : Flt} (h : IsNumber a) : AtMost a a := by
  obtain ⟨p, hp⟩ := h
  exact ⟨p, p, hp, hp, le_rfl⟩

theorem not_below {a b : Flt} (h : AtMost a b) : ¬ Below b a := by
  rintro ⟨x, y, hx, hy, hlt⟩
  obtain ⟨x', y', hx', hy', hle⟩ := h
  rw [hx] at hy'; rw [hy] at hx'
  cases hy'; cases hx'
  exact absurd hle (not_le.2 hlt)

theorem not_below_iff {a b : Flt} (ha : IsNumber a) (hb : IsNumber b) : ¬ Below a b ↔ AtMost b a := by
  refine ⟨fun h => ?_, not_below⟩
  obtain ⟨x, hx⟩ := ha
  obtain ⟨y, hy⟩ := hb
  exact ⟨y, x, hy, hx, not_lt.1 fun hlt => h ⟨x, y, hx, hy, hlt⟩⟩

theorem Spec.Below.atMost {a b : Flt} (h : Below a b) : AtMost a b := by
  obtain ⟨x, y, hx, hy, hlt⟩ := h
  exact ⟨x, y, hx, hy, hlt.le⟩

theorem Spec.Below.trans_atMost {a b c : Flt} (h : Below a b) (h' : AtMost b c) : Below a c := by
  obtain ⟨x, y, hx, hy, hlt⟩ := h
  obtain ⟨y', z, hy', hz, hle⟩ := h'
  rw [hy] at hy'; cases hy'
  exact ⟨x, z, hx, hz, hlt.trans_le hle⟩

theorem pos_fin (s : Bool) (m : ℚ) : (Flt.fin s m).pos = some (((Flt.fin s m).val : WithTop ℚ) : WithBot (WithTop ℚ)) := rfl

theorem below_fin {s s' : Bool} {m m' : ℚ} : Below (.fin s m) (.fin s' m') ↔ (Flt.fin s m).val < (Flt.fin s' m').val := by
  rw [← lt_iff]; simp [Flt.lt, Flt.val]

theorem atMost_fin {s s' : Bool} {m m' : ℚ} : AtMost (.fin s m) (.fin s' m') ↔ (Flt.fin s m).val ≤ (Flt.fin s' m').val := by
  rw [← le_iff]; simp [Flt.le, Flt.val]

theorem isFloat_binary {f : Fmt} {s : Bool} {m : ℚ} (h : IsFloat f (.fin s m)) : IsBinary f.prec f.emin (Flt.fin s m).val := by
  cases s
  · exact h.2.2
  · exact Fmt.isBinary_neg h.2.2

theorem isFloat_abs {f : Fmt} {s : Bool} {m : ℚ} (h : IsFloat f (.fin s m)) : |(Flt.fin s m).val| ≤ f.maxVal := by
  cases s
  · simpa [Flt.val, abs_of_nonneg h.1] using h.2.1
  · simpa [Flt.val, abs_of_nonneg h.1] using h.2.1

/-- Binary fractions are multiples of the smallest one. -/
theorem binary_mul {p : Nat} {e : Int} {x : ℚ} (h : IsBinary p e x) : ∃ n : Int, x = n * 2 ^ e := by
  obtain ⟨m, k, _, hk, rfl⟩ := h
  obtain ⟨d, rfl⟩ := Int.le.dest hk
  refine ⟨m * 2 ^ d, ?_⟩
  rw [zpow_add₀ (by norm_num), zpow_natCast]
  push_cast; ring

/-- Sums of binary fractions that are not zero do not round to zero, and keep their sign. -/
theorem srnd_sum_pos {f : Fmt} (hp : 1 ≤ f.prec) {a b : ℚ} (ha : IsBinary f.prec f.emin a) (hb : IsBinary f.prec f.emin b)
    (h : 0 < a + b) : 0 < f.srnd (a + b) := by
  obtain ⟨n, rfl⟩ := binary_mul ha
  obtain ⟨k, rfl⟩ := binary_mul hb
  have h2 := Fmt.pow_pos f.emin
  have hz : IsBinary f.prec f.emin (2 ^ f.emin) :=
    ⟨1, f.emin, by rw [abs_one]; exact one_lt_pow₀ (by norm_num) (by omega), le_rfl, by simp⟩
  refine lt_of_lt_of_le h2 (Fmt.le_srnd hp hz ?_)
  have e : (n : ℚ) * 2 ^ f.emin + k * 2 ^ f.emin = ((n + k : Int) : ℚ) * 2 ^ f.emin := by push_cast; ring
  rw [e] at h ⊢
  have : (0 : ℚ) < ((n + k : Int) : ℚ) := by
    by_contra hc
    have := mul_nonpos_of_nonpos_of_nonneg (not_lt.1 hc) h2.le
    linarith
  have : (1 : ℚ) ≤ ((n + k : Int) : ℚ) := by exact_mod_cast (show (1 : Int) ≤ n + k by exact_mod_cast this)
  nlinarith

theorem prec_pos {f : Fmt} (hf : f = .double ∨ f = .single) : 1 ≤ f.prec := by rcases hf with rfl | rfl <;> decide

/-- The exact value of a sum of two finite values. -/
theorem add_fin (f : Fmt) (s s' : Bool) (m m' : ℚ) :
    f.add (.fin s m) (.fin s' m') = f.result (s && s') ((Flt.fin s m).val + (Flt.fin s' m').val) := rfl

theorem neg_val (s : Bool) (m : ℚ) : (Flt.fin (!s) m).val = -(Flt.fin s m).val := by cases s <;> simp [Flt.val]

theorem sub_fin (f : Fmt) (s s' : Bool) (m m' : ℚ) :
    f.sub (.fin s m) (.fin s' m') = f.result (s && !s') ((Flt.fin s m).val - (Flt.fin s' m').val) := by
  show f.add (.fin s m) (.fin (!s') m') = _
  rw [add_fin, neg_val, ← sub_eq_add_neg]

/-- A positive number that does not round to zero gives a positive result. -/
theorem result_above {f : Fmt} {z : Bool} {q : ℚ} (h : 0 < q) (h' : 0 < f.srnd q) : Below (.fin false 0) (f.result z q) := by
  by_cases hq : f.Fits q
  · obtain ⟨e, hv⟩ := Fmt.result_fits (z := z) hq
    rw [e] at hv ⊢
    rw [below_fin, hv]
    exact h'
  · rw [Fmt.result_over hq, decide_eq_false (not_lt.2 h.le), ← lt_iff]
    rfl

theorem result_below {f : Fmt} {z : Bool} {q : ℚ} (h : q < 0) (h' : f.srnd q < 0) : Below (f.result z q) (.fin false 0) := by
  by_cases hq : f.Fits q
  · obtain ⟨e, hv⟩ := Fmt.result_fits (z := z) hq
    rw [e] at hv ⊢
    rw [below_fin, hv]
    simpa [Flt.val] using h'
  · rw [Fmt.result_over hq, decide_eq_true h, ← lt_iff]
    rfl

theorem sub_below {f : Fmt} (hf : f = .double ∨ f = .single) {a b : Flt} (ha : IsFloat f a) (hb : IsFloat f b) (h : Below a b) :
    Below (f.sub a b) (.fin false 0) := by
  rcases a with ⟨s, m⟩ | ⟨_ | _⟩ | s <;> rcases b with ⟨s', m'⟩ | ⟨_ | _⟩ | s' <;>
    first
    | (exfalso; rw [← lt_iff] at h; simp [Flt.lt] at h; done)
    | (rw [← lt_iff]; rfl)
    | skip
  rw [sub_fin]
  rw [below_fin] at h
  have h1 : (Flt.fin s m).val - (Flt.fin s' m').val < 0 := by linarith
  refine result_below h1 ?_
  have := srnd_sum_pos (prec_pos hf) (Fmt.isBinary_neg (isFloat_binary ha)) (isFloat_binary hb) (by linarith)
  have e : -(Flt.fin s m).val + (Flt.fin s' m').val = -((Flt.fin s m).val - (Flt.fin s' m').val) := by ring
  rw [e, Fmt.srnd_neg] at this
  linarith

theorem sub_above {f : Fmt} (hf : f = .double ∨ f = .single) {a b : Flt} (ha : IsFloat f a) (hb : IsFloat f b) (h : Below b a) :
    Below (.fin false 0) (f.sub a b) := by
  rcases a with ⟨s, m⟩ | ⟨_ | _⟩ | s <;> rcases b with ⟨s', m'⟩ | ⟨_ | _⟩ | s' <;>
    first
    | (exfalso; rw [← lt_iff] at h; simp [Flt.lt] at h; done)
    | (rw [← lt_iff]; rfl)
    | skip
  rw [sub_fin]
  rw [below_fin] at h
  have h1 : 0 < (Flt.fin s m).val - (Flt.fin s' m').val := by linarith
  refine result_above h1 ?_
  have := srnd_sum_pos (prec_pos hf) (isFloat_binary ha) (Fmt.isBinary_neg (isFloat_binary hb)) (by linarith)
  rwa [← sub_eq_add_neg] at this


open Spec

theorem Spec.Stands.fin {f : Fmt} {x : Flt} {q : ℚ} (h : Stands f x q) : ∃ s m, x = .fin s m ∧ (Flt.fin s m).val = q := by
  obtain ⟨_, h⟩ := h
  rcases x with ⟨s, m⟩ | ⟨_ | _⟩ | s
  · refine ⟨s, m, rfl, ?_⟩
    rw [pos_fin] at h
    exact WithTop.coe_injective (WithBot.coe_injective (Option.some.inj h))
  · exact absurd (WithBot.coe_injective (Option.some.inj h)) (by simp)
  · exact absurd (Option.some.inj h) (by simp)
  · cases h

theorem stands_fin {f : Fmt} {s : Bool} {m : ℚ} (h : IsFloat f (.fin s m)) : Stands f (.fin s m) (Flt.fin s m).val := ⟨h, rfl⟩

theorem Spec.Stands.binary {f : Fmt} {x : Flt} {q : ℚ} (h : Stands f x q) : IsBinary f.prec f.emin q := by
  obtain ⟨s, m, rfl, rfl⟩ := h.fin
  exact isFloat_binary h.1

theorem Spec.Stands.abs_le {f : Fmt} {x : Flt} {q : ℚ} (h : Stands f x q) : |q| ≤ f.maxVal := by
  obtain ⟨s, m, rfl, rfl⟩ := h.fin
  exact isFloat_abs h.1

theorem maxVal_binary {f : Fmt} (hf : f = .double ∨ f = .single) : IsBinary f.prec f.emin f.maxVal := by
  rcases hf with rfl | rfl
  · exact ⟨2 ^ 53 - 1, 971, by decide, by decide, by norm_num [Fmt.maxVal, Fmt.double]⟩
  · exact ⟨2 ^ 24 - 1, 104, by decide, by decide, by norm_num [Fmt.maxVal, Fmt.single]⟩

theorem fits_of_le {f : Fmt} (hf : f = .double ∨ f = .single) {q : ℚ} (h : |q| ≤ f.maxVal) : f.Fits q := by
  unfold Fmt.Fits
  have h1 := abs_le.1 h
  rw [abs_le]
  exact ⟨Fmt.le_srnd (prec_pos hf) (Fmt.isBinary_neg (maxVal_binary hf)) h1.1, Fmt.srnd_le (prec_pos hf) (maxVal_binary hf) h1.2⟩

theorem isBinary_abs {p : Nat} {e : Int} {x : ℚ} (h : IsBinary p e x) : IsBinary p e |x| := by
  rcases abs_choice x with h' | h' <;> rw [h']
  · exact h
  · exact Fmt.isBinary_neg h

/-- What an operation gives if its exact result fits. -/
theorem result_stands {f : Fmt} (hf : f = .double ∨ f = .single) (z : Bool) {q : ℚ} (h : |q| ≤ f.maxVal) :
    Stands f (f.result z q) (f.srnd q) := by
  have hq := fits_of_le hf h
  obtain ⟨e, hv⟩ := Fmt.result_fits (z := z) hq
  rw [e] at hv ⊢
  refine ⟨⟨abs_nonneg _, hq, isBinary_abs (Fmt.srnd_nearest (prec_pos hf) q).1⟩, ?_⟩
  rw [pos_fin, hv]

theorem add_stands {f : Fmt} (hf : f = .double ∨ f = .single) {x y : Flt} {a b : ℚ} (hx : Stands f x a) (hy : Stands f y b)
    (h : |a + b| ≤ f.maxVal) : Stands f (f.add x y) (f.srnd (a + b)) := by
  obtain ⟨s, m, rfl, rfl⟩ := hx.fin
  obtain ⟨s', m', rfl, rfl⟩ := hy.fin
  rw [add_fin]
  exact result_stands hf _ h

theorem sub_stands {f : Fmt} (hf : f = .double ∨ f = .single) {x y : Flt} {a b : ℚ} (hx : Stands f x a) (hy : Stands f y b)
    (h : |a - b| ≤ f.maxVal) : Stands f (f.sub x y) (f.srnd (a - b)) := by
  obtain ⟨s, m, rfl, rfl⟩ := hx.fin
  obtain ⟨s', m', rfl, rfl⟩ := hy.fin
  rw [sub_fin]
  exact result_stands hf _ h

/-- Sums are rounded with small relative error, even very small ones. -/
theorem srnd_rel {f : Fmt} (hp : 1 ≤ f.prec) {q : ℚ} (hq : ∃ n : Int, q = n * 2 ^ f.emin) :
    |f.srnd q - q| ≤ |q| / 2 ^ f.prec := by
  have key : ∀ q : ℚ, 0 ≤ q → (∃ n : Int, q = n * 2 ^ f.emin) → |f.rnd q - q| ≤ q / 2 ^ f.prec := by
    intro q h0 ⟨n, hn⟩
    rcases h0.eq_or_lt with rfl | hpos
    · rw [Fmt.rnd_zero]; simp
    rcases lt_or_ge f.emin (f.ulpExp q) with he | he
    · have h1 := Fmt.size_le f hpos he
      have h2 := Fmt.rnd_near f q
      refine h2.trans ?_
      rw [le_div_iff₀ (by positivity)]
      refine le_trans (le_of_eq ?_) h1
      rw [sub_add_eq_add_sub, zpow_sub_one₀ (by norm_num), zpow_add₀ (by norm_num), zpow_natCast]
      ring
    · have he : f.ulpExp q = f.emin := le_antisymm he (le_max_left _ _)
      have hlt := Fmt.lt_size f h0
      rw [he] at hlt
      have hb : IsBinary f.prec f.emin q := by
        refine ⟨n, f.emin, ?_, le_rfl, hn⟩
        have h2 := Fmt.pow_pos f.emin
        rw [hn] at h0 hlt
        have h3 : (n : ℚ) < 2 ^ f.prec := lt_of_mul_lt_mul_right hlt h2.le
        have h4 : (0 : ℚ) ≤ n := nonneg_of_mul_nonneg_left h0 h2
        have h5 : (0 : Int) ≤ n := by exact_mod_cast h4
        rw [abs_of_nonneg h5]
        exact_mod_cast h3
      rw [Fmt.rnd_self f hp h0 hb]
      simp only [sub_self, abs_zero]
      positivity
  rcases le_total 0 q with h | h
  · rw [Fmt.srnd_nonneg h, abs_of_nonneg h]; exact key q h hq
  · have h' : 0 ≤ -q := by linarith
    obtain ⟨n, hn⟩ := hq
    have := key (-q) h' ⟨-n, by rw [hn]; push_cast; ring⟩
    have e : f.srnd q = -f.rnd (-q) := by rw [← Fmt.srnd_nonneg h', Fmt.srnd_neg, neg_neg]
    rw [e, abs_of_nonpos h]
    have e1 : -f.rnd (-q) - q = -(f.rnd (-q) - -q) := by ring
    rw [e1, abs_neg]
    exact this

theorem multiple_add {e : Int} {a b : ℚ} (ha : ∃ n : Int, a = n * 2 ^ e) (hb : ∃ n : Int, b = n * 2 ^ e) :
    ∃ n : Int, a + b = n * 2 ^ e := by
  obtain ⟨n, rfl⟩ := ha
  obtain ⟨k, rfl⟩ := hb
  exact ⟨n + k, by push_cast; ring⟩

theorem multiple_neg {e : Int} {a : ℚ} (ha : ∃ n : Int, a = n * 2 ^ e) : ∃ n : Int, -a = n * 2 ^ e := by
  obtain ⟨n, rfl⟩ := ha
  exact ⟨-n, by push_cast; ring⟩

theorem multiple_mul {e : Int} {a : ℚ} (k : Int) (ha : ∃ n : Int, a = n * 2 ^ e) : ∃ n : Int, k * a = n * 2 ^ e := by
  obtain ⟨n, rfl⟩ := ha
  exact ⟨k * n, by push_cast; ring⟩

/-- `fmod` of finite numbers is exact: the number less a whole number of times the divisor, nearer to zero than it, with the sign
of the number; it is a number of the format. -/
theorem fmod_stands {f : Fmt} {x y : Flt} {a b : ℚ} (hx : Stands f x a) (hy : Stands f y b) (hb : 0 < b) :
    ∃ (k : Int), Stands f (Flt.fmod x y) (a - k * b) ∧ |a - k * b| < b ∧ (0 ≤ a → 0 ≤ a - k * b ∧ a - k * b ≤ a) ∧
      (a ≤ 0 → a - k * b ≤ 0 ∧ a ≤ a - k * b) := by
  obtain ⟨s, m, rfl, rfl⟩ := hx.fin
  obtain ⟨s', m', rfl, rfl⟩ := hy.fin
  obtain ⟨h0, hmax, hbin⟩ := hx.1
  obtain ⟨h0', hmax', hbin'⟩ := hy.1
  have hs' : (Flt.fin s' m').val = m' := by
    cases s'
    · rfl
    · simp only [Flt.val, if_true] at hb; linarith
  rw [hs'] at hb ⊢
  have hm' : m' ≠ 0 := hb.ne'
  have hfl := Int.floor_le (m / m')
  have hfl' := Int.lt_floor_add_one (m / m')
  have hk : 0 ≤ ⌊m / m'⌋ := Int.floor_nonneg.2 (by positivity)
  have hk' : (0 : ℚ) ≤ ⌊m / m'⌋ := by exact_mod_cast hk
  have h1 : 0 ≤ m - m' * ⌊m / m'⌋ := by
    rw [le_div_iff₀ hb] at hfl; linarith
  have h2 : m - m' * ⌊m / m'⌋ < m' := by
    rw [div_lt_iff₀ hb] at hfl'; linarith
  have h3 : m - m' * ⌊m / m'⌋ ≤ m := by
    have := mul_nonneg hb.le hk'; linarith
  have hr : IsBinary f.prec f.emin (m - m' * ⌊m / m'⌋) := by
    obtain ⟨c, i, hc, hi, e1⟩ := hbin
    obtain ⟨d, j, hd, hj, e2⟩ := hbin'
    generalize ⌊m / m'⌋ = k at *
    rcases le_total i j with hij | hij
    · obtain ⟨t, rfl⟩ := Int.le.dest hij
      have e : m - m' * k = ((c - d * 2 ^ t * k : Int) : ℚ) * 2 ^ i := by
        rw [e1, e2, zpow_add₀ (by norm_num), zpow_natCast]; push_cast; ring
      refine ⟨c - d * 2 ^ t * k, i, ?_, hi, e⟩
      have hpi := Fmt.pow_pos i
      rw [e] at h1 h3
      have h4 : (0 : ℚ) ≤ ((c - d * 2 ^ t * k : Int) : ℚ) := nonneg_of_mul_nonneg_left h1 hpi
      rw [e1] at h3
      have h5 : ((c - d * 2 ^ t * k : Int) : ℚ) ≤ (c : ℚ) := le_of_mul_le_mul_right h3 hpi
      have h4 : 0 ≤ c - d * 2 ^ t * k := by exact_mod_cast h4
      have h5 : c - d * 2 ^ t * k ≤ c := by exact_mod_cast h5
      rw [abs_of_nonneg h4]
      exact lt_of_le_of_lt (h5.trans (le_abs_self c)) hc
    · obtain ⟨t, rfl⟩ := Int.le.dest hij
      have e : m - m' * k = ((c * 2 ^ t - d * k : Int) : ℚ) * 2 ^ j := by
        rw [e1, e2, zpow_add₀ (by norm_num), zpow_natCast]; push_cast; ring
      refine ⟨c * 2 ^ t - d * k, j, ?_, hj, e⟩
      have hpj := Fmt.pow_pos j
      rw [e] at h1 h2
      have h4 : (0 : ℚ) ≤ ((c * 2 ^ t - d * k : Int) : ℚ) := nonneg_of_mul_nonneg_left h1 hpj
      rw [e2] at h2
      have h5 : ((c * 2 ^ t - d * k : Int) : ℚ) < (d : ℚ) := lt_of_mul_lt_mul_right h2 hpj.le
      have h4 : 0 ≤ c * 2 ^ t - d * k := by exact_mod_cast h4
      have h5 : c * 2 ^ t - d * k < d := by exact_mod_cast h5
      rw [abs_of_nonneg h4]
      exact lt_trans (lt_of_lt_of_le h5 (le_abs_self d)) hd
  have hF : Flt.fmod (.fin s m) (.fin s' m') = .fin s (m - m' * ⌊m / m'⌋) := by
    simp only [Flt.fmod, if_neg hm']
  have hI : IsFloat f (.fin s (m - m' * ⌊m / m'⌋)) := ⟨h1, h3.trans hmax, hr⟩
  cases s with
  | false =>
    refine ⟨⌊m / m'⌋, ?_, ?_, fun _ => ?_, fun h => ?_⟩ <;> simp only [Flt.val, Bool.false_eq_true, if_false] at *
    · rw [hF]
      have := stands_fin hI
      simp only [Flt.val, Bool.false_eq_true, if_false] at this
      have e : m - (⌊m / m'⌋ : ℚ) * m' = m - m' * ⌊m / m'⌋ := by ring
      rw [e]; exact this
    · rw [abs_of_nonneg (by linarith)]; linarith
    · constructor <;> linarith
    · have : m = 0 := le_antisymm h h0
      subst this
      simp
  | true =>
    refine ⟨-⌊m / m'⌋, ?_, ?_, fun h => ?_, fun _ => ?_⟩ <;> simp only [Flt.val, if_true] at *
    · rw [hF]
      have := stands_fin hI
      simp only [Flt.val, if_true] at this
      have e : -m - ((-⌊m / m'⌋ : Int) : ℚ) * m' = -(m - m' * ⌊m / m'⌋) := by push_cast; ring
      rwa [e]
    · have e : -m - ((-⌊m / m'⌋ : Int) : ℚ) * m' = -(m - m' * ⌊m / m'⌋) := by push_cast; ring
      rw [e, abs_neg, abs_of_nonneg h1]; exact h2
    · have : m = 0 := by linarith
      subst this
      simp
    · push_cast
      constructor <;> nlinarith

open Spec

theorem mul_stands {f : Fmt} (hf : f = .double ∨ f = .single) {x y : Flt} {a b : ℚ} (hx : Stands f x a) (hy : Stands f y b)
    (h : |a * b| ≤ f.maxVal) : Stands f (f.mul x y) (f.srnd (a * b)) := by
  obtain ⟨s, m, rfl, rfl⟩ := hx.fin
  obtain ⟨s', m', rfl, rfl⟩ := hy.fin
  have e : (if (s != s') = true then -(m * m') else m * m') = (Flt.fin s m).val * (Flt.fin s' m').val := by
    cases s <;> cases s' <;> simp [Flt.val]
  simp only [Fmt.mul]
  rw [e]
  exact result_stands hf _ h

theorem div_stands {f : Fmt} (hf : f = .double ∨ f = .single) {x y : Flt} {a b : ℚ} (hx : Stands f x a) (hy : Stands f y b)
    (hb : b ≠ 0) (h : |a / b| ≤ f.maxVal) : Stands f (f.div x y) (f.srnd (a / b)) := by
  obtain ⟨s, m, rfl, rfl⟩ := hx.fin
  obtain ⟨s', m', rfl, rfl⟩ := hy.fin
  have hm : m' ≠ 0 := by rintro rfl; cases s' <;> simp [Flt.val] at hb
  have e : (if (s != s') = true then -(m / m') else m / m') = (Flt.fin s m).val / (Flt.fin s' m').val := by
    cases s <;> cases s' <;> simp [Flt.val, neg_div, div_neg]
  simp only [Fmt.div, if_neg hm]
  rw [e]
  exact result_stands hf _ h

theorem srnd_pos_le {f : Fmt} {q : ℚ} (h : 0 ≤ q) : 0 ≤ f.srnd q := by rw [Fmt.srnd_nonneg h]; exact Fmt.rnd_nonneg f h

theorem zero_binary (f : Fmt) : IsBinary f.prec f.emin 0 := ⟨0, f.emin, by simp, le_rfl, by simp⟩

/-- Rounding at most doubles. -/
theorem srnd_le_two {f : Fmt} (hp : 1 ≤ f.prec) {q : ℚ} (h : 0 ≤ q) : f.srnd q ≤ 2 * q := by
  have := (Fmt.srnd_nearest (f := f) hp q).2 0 (zero_binary f)
  rw [zero_sub, abs_neg, abs_of_nonneg h] at this
  have := (abs_le.1 this).2
  linarith

theorem pow_binary {f : Fmt} (hf : f = .double ∨ f = .single) (j : Nat) : IsBinary f.prec f.emin (2 ^ j) := by
  refine ⟨1, j, ?_, ?_, by simp⟩
  · rw [abs_one]; exact one_lt_pow₀ (by norm_num) (by have := prec_pos hf; omega)
  · rcases hf with rfl | rfl <;> simp [Fmt.double, Fmt.single] <;> omega

theorem srnd_abs_pow {f : Fmt} (hf : f = .double ∨ f = .single) {q : ℚ} {j : Nat} (h : |q| ≤ 2 ^ j) : |f.srnd q| ≤ 2 ^ j := by
  have h1 := abs_le.1 h
  rw [abs_le]
  exact ⟨Fmt.le_srnd (prec_pos hf) (Fmt.isBinary_neg (pow_binary hf j)) h1.1, Fmt.srnd_le (prec_pos hf) (pow_binary hf j) h1.2⟩

theorem binary_double {f : Fmt} {x : ℚ} (h : IsBinary f.prec f.emin x) : IsBinary f.prec f.emin (2 * x) := by
  obtain ⟨m, e, hm, he, rfl⟩ := h
  exact ⟨m, e + 1, hm, by omega, by rw [zpow_add_one₀ (by norm_num)]; ring⟩

/-- Rounding error in general. -/
theorem srnd_err {f : Fmt} (q : ℚ) : |f.srnd q - q| ≤ |q| / 2 ^ f.prec + 2 ^ f.emin / 2 := by
  have key : ∀ q : ℚ, 0 ≤ q → |f.rnd q - q| ≤ q / 2 ^ f.prec + 2 ^ f.emin / 2 := by
    intro q h0
    have h2 := Fmt.pow_pos f.emin
    rcases h0.eq_or_lt with rfl | hpos
    · rw [Fmt.rnd_zero]; simp; positivity
    have h3 := Fmt.rnd_near f q
    rcases lt_or_ge f.emin (f.ulpExp q) with he | he
    · have h1 := Fmt.size_le f hpos he
      refine h3.trans ?_
      have : (2 : ℚ) ^ f.ulpExp q / 2 ≤ q / 2 ^ f.prec := by
        rw [le_div_iff₀ (by positivity)]
        refine le_trans (le_of_eq ?_) h1
        rw [sub_add_eq_add_sub, zpow_sub_one₀ (by norm_num), zpow_add₀ (by norm_num), zpow_natCast]
        ring
      linarith
    · have he : f.ulpExp q = f.emin := le_antisymm he (le_max_left _ _)
      rw [he] at h3
      have : 0 ≤ q / 2 ^ f.prec := by positivity
      linarith
  rcases le_total 0 q with h | h
  · rw [Fmt.srnd_nonneg h, abs_of_nonneg h]; exact key q h
  · have h' : 0 ≤ -q := by linarith
    have := key (-q) h'
    have e : f.srnd q = -f.rnd (-q) := by rw [← Fmt.srnd_nonneg h', Fmt.srnd_neg, neg_neg]
    rw [e, abs_of_nonpos h]
    have e1 : -f.rnd (-q) - q = -(f.rnd (-q) - -q) := by ring
    rw [e1, abs_neg]
    exact this

/-- Rounding error of numbers that are not very small. -/
theorem srnd_rel_normal {f : Fmt} {q : ℚ} (hq : (2 : ℚ) ^ f.prec * 2 ^ f.emin ≤ 2 * |q|) :
    |f.srnd q - q| ≤ |q| / 2 ^ f.prec := by
  have key : ∀ q : ℚ, 0 ≤ q → (2 : ℚ) ^ f.prec * 2 ^ f.emin ≤ 2 * q → |f.rnd q - q| ≤ q / 2 ^ f.prec := by
    intro q h0 hq
    have h2 := Fmt.pow_pos f.emin
    rcases h0.eq_or_lt with rfl | hpos
    · rw [Fmt.rnd_zero]; simp
    have h3 := Fmt.rnd_near f q
    rcases lt_or_ge f.emin (f.ulpExp q) with he | he
    · have h1 := Fmt.size_le f hpos he
      refine h3.trans ?_
      rw [le_div_iff₀ (by positivity)]
      refine le_trans (le_of_eq ?_) h1
      rw [sub_add_eq_add_sub, zpow_sub_one₀ (by norm_num), zpow_add₀ (by norm_num), zpow_natCast]
      ring
    · have he : f.ulpExp q = f.emin := le_antisymm he (le_max_left _ _)
      rw [he] at h3
      refine h3.trans ?_
      rw [le_div_iff₀ (by positivity)]
      linarith
  rcases le_total 0 q with h | h
  · rw [abs_of_nonneg h] at hq ⊢
    rw [Fmt.srnd_nonneg h]; exact key q h hq
  · have h' : 0 ≤ -q := by linarith
    rw [abs_of_nonpos h] at hq ⊢
    have := key (-q) h' hq
    have e : f.srnd q = -f.rnd (-q) := by rw [← Fmt.srnd_nonneg h', Fmt.srnd_neg, neg_neg]
    rw [e]
    have e1 : -f.rnd (-q) - q = -(f.rnd (-q) - -q) := by ring
    rw [e1, abs_neg]
    exact this

theorem lt_stands {f : Fmt} {x y : Flt} {a b : ℚ} (hx : Stands f x a) (hy : Stands f y b) : x.lt y = true ↔ a < b := by
  obtain ⟨s, m, rfl, rfl⟩ := hx.fin
  obtain ⟨s', m', rfl, rfl⟩ := hy.fin
  rw [lt_iff, below_fin]

theorem le_stands {f : Fmt} {x y : Flt} {a b : ℚ} (hx : Stands f x a) (hy : Stands f y b) : x.le y = true ↔ a ≤ b := by
  obtain ⟨s, m, rfl, rfl⟩ := hx.fin
  obtain ⟨s', m', rfl, rfl⟩ := hy.fin
  rw [le_iff, atMost_fin]

/-- Concrete numbers. -/
theorem stands_double (s : Bool) {n e : Nat} (hn : n < 2 ^ 53) (he : e ≤ 1000) :
    Stands .double (.fin s (n / 2 ^ e)) (if s then -(n / 2 ^ e : ℚ) else n / 2 ^ e) := by
  refine ⟨⟨by positivity, ?_, n, -e, ?_, ?_, ?_⟩, by cases s <;> rfl⟩
  · have h1 : (n : ℚ) / 2 ^ e ≤ n := div_le_self (by positivity) (one_le_pow₀ (by norm_num))
    have h2 : (n : ℚ) ≤ 2 ^ 53 := by exact_mod_cast hn.le
    have h3 : (2 : ℚ) ^ 53 ≤ Fmt.double.maxVal := by decide +kernel
    linarith
  · rw [abs_of_nonneg (by positivity)]; exact_mod_cast hn
  · show (-1074 : Int) ≤ -e
    omega
  · rw [zpow_neg, zpow_natCast]; rfl

end Flut
