import Verif.Model.FloatStat
import Verif.Spec.FloatStat
import Verif.Proofs.FloatFilter
import Verif.Props.FloatAverage
import Verif.Props.DataAlgorithms

/-! # Lemmas about means, covariance and regression in floating-point arithmetic -/

namespace Flut

open Spec FloatMath

/-! ## Rounding errors, in rational numbers -/

section Arith

variable {u η n A B : ℚ}

/-- The error of a deviation from the mean. -/
theorem dev_arith (hu : 0 < u) (hη : 0 < η) (hn : 1 ≤ n) (hnu : n * u ≤ 1 / 1000) {p a a' d : ℚ} (hp : |p| ≤ A) (ha : |a| ≤ A)
    (hm : |a' - a| ≤ 8 / 7 * (n * u) * A + η / 2) (hd : |d - (p - a')| ≤ |p - a'| * u) :
    |d - (p - a)| ≤ 16 / 5 * (n * u * A) + 3 / 5 * η := by
  have hA : 0 ≤ A := (abs_nonneg _).trans hp
  have h1 : |p - a'| ≤ 2 * A + (8 / 7 * (n * u) * A + η / 2) := by
    have e : p - a' = (p - a) + (a - a') := by ring
    rw [e]
    refine (abs_add_le _ _).trans ?_
    have := abs_sub p a
    rw [abs_sub_comm a a']
    have := (abs_sub p a).trans (add_le_add hp ha)
    linarith
  have h2 : |d - (p - a)| ≤ |d - (p - a')| + |a' - a| := by
    have e : d - (p - a) = (d - (p - a')) + (a - a') := by ring
    rw [e, abs_sub_comm a' a]
    exact abs_add_le _ _
  have h3 := mul_le_mul_of_nonneg_right h1 hu.le
  have hu1 : u ≤ 1 / 1000 := by nlinarith
  have hw : 0 ≤ n * u * A := by positivity
  have huA : u * A ≤ n * u * A := by
    have : 0 ≤ u * A := by positivity
    nlinarith
  have h4 : (n * u * A) * u ≤ (n * u * A) * (1 / 1000) := mul_le_mul_of_nonneg_left hu1 hw
  have h5 : η * u ≤ η * (1 / 1000) := mul_le_mul_of_nonneg_left hu1 hη.le
  have e : (2 * A + (8 / 7 * (n * u) * A + η / 2)) * u = 2 * (u * A) + 8 / 7 * ((n * u * A) * u) + η * u / 2 := by ring
  rw [e] at h3
  have e2 : 8 / 7 * (n * u) * A = 8 / 7 * (n * u * A) := by ring
  rw [e2] at hm
  linarith

/-- The error of a product of deviations, before it is rounded. -/
theorem prod_arith (hη : 0 < η) (hη1 : η ≤ 1 / 1000) (hw0 : 0 ≤ n * u) (hnu : n * u ≤ 1 / 1000) (hA : 0 ≤ A) (hB : 0 ≤ B) {d e x y : ℚ} (hx : |x| ≤ 2 * A) (hy : |y| ≤ 2 * B)
    (hd : |d - x| ≤ 16 / 5 * (n * u * A) + 3 / 5 * η) (he : |e - y| ≤ 16 / 5 * (n * u * B) + 3 / 5 * η) :
    |d * e - x * y| ≤ 1282 / 100 * (n * u * (A * B)) + 121 / 100 * (η * (A + B)) + 1 / 1000 * η := by
  have e1 : d * e - x * y = (d - x) * (e - y) + (d - x) * y + x * (e - y) := by ring
  rw [e1]
  have t := (abs_add_le ((d - x) * (e - y) + (d - x) * y) (x * (e - y))).trans (add_le_add_left (abs_add_le _ _) _)
  simp only [abs_mul] at t
  have hw0A : 0 ≤ n * u * A := by positivity
  have hw0B : 0 ≤ n * u * B := by positivity
  have m1 : |d - x| * |e - y| ≤ (16 / 5 * (n * u * A) + 3 / 5 * η) * (16 / 5 * (n * u * B) + 3 / 5 * η) :=
    mul_le_mul hd he (abs_nonneg _) (by positivity)
  have m2 : |d - x| * |y| ≤ (16 / 5 * (n * u * A) + 3 / 5 * η) * (2 * B) := mul_le_mul hd hy (abs_nonneg _) (by positivity)
  have m3 : |x| * |e - y| ≤ 2 * A * (16 / 5 * (n * u * B) + 3 / 5 * η) := mul_le_mul hx he (abs_nonneg _) (by positivity)
  generalize n * u = w at *
  have hAB : 0 ≤ A * B := by positivity
  have hwAB : 0 ≤ w * (A * B) := by positivity
  have k1 : w * (w * (A * B)) ≤ 1 / 1000 * (w * (A * B)) := mul_le_mul_of_nonneg_right hnu hwAB
  have k2 : w * (η * (A + B)) ≤ 1 / 1000 * (η * (A + B)) := mul_le_mul_of_nonneg_right hnu (by positivity)
  have k3 : η * η ≤ 1 / 1000 * η := mul_le_mul_of_nonneg_right hη1 hη.le
  have s1 : (16 / 5 * (w * A) + 3 / 5 * η) * (16 / 5 * (w * B) + 3 / 5 * η) =
      256 / 25 * (w * (w * (A * B))) + 48 / 25 * (w * (η * (A + B))) + 9 / 25 * (η * η) := by ring
  have s2 : (16 / 5 * (w * A) + 3 / 5 * η) * (2 * B) + 2 * A * (16 / 5 * (w * B) + 3 / 5 * η) =
      64 / 5 * (w * (A * B)) + 6 / 5 * (η * (A + B)) := by ring
  rw [s1] at m1
  have : 0 ≤ η * (A + B) := by positivity
  linarith

/-- The error of a rounded product of deviations, and its size. -/
theorem term_arith (hu : 0 < u) (hη : 0 < η) (hη1 : η ≤ 1 / 1000) (hn : 1 ≤ n) (hnu : n * u ≤ 1 / 1000) (hA : 0 ≤ A) (hB : 0 ≤ B) {d e x y t : ℚ}
    (hx : |x| ≤ 2 * A) (hy : |y| ≤ 2 * B) (hd : |d - x| ≤ 16 / 5 * (n * u * A) + 3 / 5 * η) (he : |e - y| ≤ 16 / 5 * (n * u * B) + 3 / 5 * η)
    (ht : |t - d * e| ≤ |d * e| * u + η / 2) :
    |t - x * y| ≤ 17 * (n * u * (A * B)) + 122 / 100 * (η * (A + B)) + 3 / 5 * η ∧
      |d * e| ≤ 402 / 100 * (A * B) + 122 / 100 * (η * (A + B)) + 3 / 5 * η ∧
      |t| ≤ 402 / 100 * (A * B) + 122 / 100 * (η * (A + B)) + 3 / 5 * η := by
  have h1 := prod_arith hη hη1 (by positivity) hnu hA hB hx hy hd he
  have hxy : |x * y| ≤ 4 * (A * B) := by
    rw [abs_mul]
    have := mul_le_mul hx hy (abs_nonneg _) (by positivity)
    have e : 2 * A * (2 * B) = 4 * (A * B) := by ring
    linarith
  have hu1 : u ≤ 1 / 1000 := by nlinarith
  have hAB : 0 ≤ A * B := by positivity
  have hS : 0 ≤ η * (A + B) := by positivity
  have hw : n * u * (A * B) ≤ 1 / 1000 * (A * B) := mul_le_mul_of_nonneg_right hnu hAB
  have huAB : u * (A * B) ≤ n * u * (A * B) := by
    have : 0 ≤ u * (A * B) := by positivity
    nlinarith
  have hw0 : 0 ≤ n * u * (A * B) := by positivity
  have hde : |d * e| ≤ 4014 / 1000 * (A * B) + 121 / 100 * (η * (A + B)) + 1 / 1000 * η := by
    have := abs_add_le (d * e - x * y) (x * y)
    rw [sub_add_cancel] at this
    linarith
  have h2 := mul_le_mul_of_nonneg_right hde hu.le
  have k1 : η * (A + B) * u ≤ η * (A + B) * (1 / 1000) := mul_le_mul_of_nonneg_left hu1 hS
  have k2 : η * u ≤ η * (1 / 1000) := mul_le_mul_of_nonneg_left hu1 hη.le
  have e1 : (4014 / 1000 * (A * B) + 121 / 100 * (η * (A + B)) + 1 / 1000 * η) * u =
      4014 / 1000 * (u * (A * B)) + 121 / 100 * (η * (A + B) * u) + 1 / 1000 * (η * u) := by ring
  rw [e1] at h2
  have h3 : |t - x * y| ≤ 17 * (n * u * (A * B)) + 122 / 100 * (η * (A + B)) + 3 / 5 * η := by
    have e : t - x * y = (t - d * e) + (d * e - x * y) := by ring
    rw [e]
    refine (abs_add_le _ _).trans ?_
    linarith
  refine ⟨h3, by linarith, ?_⟩
  have := abs_add_le (t - x * y) (x * y)
  rw [sub_add_cancel] at this
  linarith

end Arith

/-! ## The mean -/

theorem sum_abs_le {q : List ℚ} {A : ℚ} (h : ∀ x ∈ q, |x| ≤ A) : (q.map abs).sum ≤ q.length * A := by
  induction q with
  | nil => simp
  | cons a q ih =>
    have h1 := h a (by simp)
    have h2 := ih fun x hx => h x (by simp [hx])
    simp only [List.map_cons, List.sum_cons, List.length_cons]
    push_cast
    linarith

theorem mean_abs_le {q : List ℚ} {A : ℚ} (h0 : q ≠ []) (h : ∀ x ∈ q, |x| ≤ A) : |mean q| ≤ A := by
  have hl : (0 : ℚ) < q.length := by
    have : 0 < q.length := List.length_pos_iff.2 h0
    exact_mod_cast this
  unfold mean
  rw [abs_div, abs_of_pos hl, div_le_iff₀ hl, mul_comm]
  exact (abs_sum_le q).trans (sum_abs_le h)

section Near

variable {f : Fmt} {v w : List Flt} {p q : List ℚ} {A B : ℚ}

theorem stat_consts (hf : f = .double ∨ f = .single) : 0 < 1 / (2 : ℚ) ^ f.prec ∧ 0 < (2 : ℚ) ^ f.emin ∧ (2 : ℚ) ^ f.emin ≤ 1 / 1000 ∧
    (2 : ℚ) ^ f.emin * 1000000 ≤ 1 ∧ 1000000 ≤ f.maxVal := by
  obtain ⟨-, hn0, hn, hMx⟩ := fmt_consts hf
  refine ⟨by positivity, hn0, hn.trans (by norm_num), ?_, le_trans (by norm_num) hMx⟩
  have : (1 : ℚ) / 2 ^ 100 * 1000000 ≤ 1 := by norm_num
  linarith

/-- The computed mean of values up to `A`. -/
theorem mean_near (hf : f = .double ∨ f = .single) (hv : List.Forall₂ (Stands f) v p) (h0 : p ≠ []) (hA : ∀ x ∈ p, |x| ≤ A)
    (hn : (p.length : ℚ) * (1 / 2 ^ f.prec) ≤ 1 / 1000) (hmax : 8 * (p.length * A) ≤ f.maxVal) :
    ∃ a, Stands f (average f v) a ∧ |a - mean p| ≤ 8 / 7 * (p.length * (1 / 2 ^ f.prec)) * A + 2 ^ f.emin / 2 := by
  have hl := hv.length_eq
  have hu0 : (0 : ℚ) < 1 / 2 ^ f.prec := by positivity
  have hlp : (1 : ℚ) ≤ p.length := by
    have : 0 < p.length := List.length_pos_iff.2 h0
    exact_mod_cast this
  have hA0 : 0 ≤ A := by
    obtain ⟨x, hx⟩ := List.exists_mem_of_ne_nil _ h0
    exact (abs_nonneg _).trans (hA x hx)
  have hpow := one_add_pow_le hu0.le p.length (by linarith)
  have hS := sum_abs_le hA
  have hpow2 : (1 + 1 / (2 : ℚ) ^ f.prec) ^ p.length ≤ 2 := by linarith
  have hpow1 : 1 ≤ (1 + 1 / (2 : ℚ) ^ f.prec) ^ p.length := one_le_pow₀ (by linarith)
  have hS0 : 0 ≤ (p.map abs).sum := List.sum_nonneg (by
    intro z hz; obtain ⟨w, -, rfl⟩ := List.mem_map.1 hz; exact abs_nonneg w)
  have hpA : 0 ≤ p.length * A := by positivity
  obtain ⟨a, h1, h2⟩ := C105_average_partial f hf v p hv (by rintro rfl; cases hv; exact h0 rfl)
    (by
      rw [hl]
      have : (p.length : ℚ) < 2 ^ f.prec := by
        rw [mul_one_div, div_le_iff₀ (by positivity)] at hn
        have : (0 : ℚ) < 2 ^ f.prec := by positivity
        linarith
      exact_mod_cast this)
    (by
      rw [hl]
      have := mul_le_mul hS hpow2 (by linarith) hpA
      linarith)
  refine ⟨a, h1, h2.trans ?_⟩
  rw [hl]
  have h3 : (p.map abs).sum / p.length ≤ A := by
    rw [div_le_iff₀ (by linarith), mul_comm]
    exact hS
  have := mul_le_mul (show (1 + 1 / (2 : ℚ) ^ f.prec) ^ p.length - 1 ≤ 8 / 7 * (p.length * (1 / 2 ^ f.prec)) by linarith) h3 (by positivity) (by positivity)
  linarith

/-- What is computed for one product of deviations. -/
def devTerm (f : Fmt) (a b x y : Flt) : Flt := f.mul (f.sub x a) (f.sub y b)

/-- The loop adds the products. -/
def devSum (f : Fmt) (a b : Flt) (v w : List Flt) : Flt := (List.zipWith (devTerm f a b) v w).foldl f.add (.fin false 0)

theorem sub_near (hf : f = .double ∨ f = .single) {n : ℚ} (hn1 : 1 ≤ n) (hnu : n * (1 / 2 ^ f.prec) ≤ 1 / 1000) (hmax : 8 * (n * A) ≤ f.maxVal)
    {x a : Flt} {y b c : ℚ} (hx : Stands f x y) (ha : Stands f a b) (hy : |y| ≤ A) (hc : |c| ≤ A)
    (hb : |b - c| ≤ 8 / 7 * (n * (1 / 2 ^ f.prec)) * A + 2 ^ f.emin / 2) :
    ∃ d, Stands f (f.sub x a) d ∧ |d - (y - c)| ≤ 16 / 5 * (n * (1 / 2 ^ f.prec) * A) + 3 / 5 * 2 ^ f.emin := by
  obtain ⟨hu0, hη0, hη1, hη2, hM⟩ := stat_consts hf
  have hA : 0 ≤ A := (abs_nonneg _).trans hy
  have hnA : A ≤ n * A := by nlinarith
  have hw : n * (1 / 2 ^ f.prec) * A ≤ 1 / 1000 * A := mul_le_mul_of_nonneg_right hnu hA
  refine ⟨f.srnd (y - b), sub_stands hf hx ha ?_, ?_⟩
  · have e : y - b = (y - c) + (c - b) := by ring
    rw [e]
    refine (abs_add_le _ _).trans ?_
    rw [abs_sub_comm c b]
    have := (abs_sub y c).trans (add_le_add hy hc)
    linarith
  · refine dev_arith hu0 hη0 hn1 hnu hy hc hb ?_
    have := srnd_rel (f := f) (prec_pos hf) (q := y + -b) (multiple_add (binary_mul hx.binary)
      (by obtain ⟨k, hk⟩ := binary_mul ha.binary; exact ⟨-k, by rw [hk]; push_cast; ring⟩))
    rwa [← sub_eq_add_neg, div_eq_mul_one_div] at this

/-- The products, one by one. -/
theorem devTerm_near (hf : f = .double ∨ f = .single) {n : ℚ} (hn1 : 1 ≤ n) (hnu : n * (1 / 2 ^ f.prec) ≤ 1 / 1000) (hmA : 8 * (n * A) ≤ f.maxVal)
    (hmB : 8 * (n * B) ≤ f.maxVal) (hmAB : 8 * (n * (A * B)) ≤ f.maxVal) {x y a b : Flt} {p q a' b' ma mb : ℚ} (hx : Stands f x p) (hy : Stands f y q)
    (ha : Stands f a a') (hb : Stands f b b') (hp : |p| ≤ A) (hq : |q| ≤ B) (hma : |ma| ≤ A) (hmb : |mb| ≤ B)
    (ea : |a' - ma| ≤ 8 / 7 * (n * (1 / 2 ^ f.prec)) * A + 2 ^ f.emin / 2) (eb : |b' - mb| ≤ 8 / 7 * (n * (1 / 2 ^ f.prec)) * B + 2 ^ f.emin / 2) :
    ∃ t, Stands f (devTerm f a b x y) t ∧
      |t - (p - ma) * (q - mb)| ≤ 17 * (n * (1 / 2 ^ f.prec) * (A * B)) + 122 / 100 * (2 ^ f.emin * (A + B)) + 3 / 5 * 2 ^ f.emin ∧
      |t| ≤ 402 / 100 * (A * B) + 122 / 100 * (2 ^ f.emin * (A + B)) + 3 / 5 * 2 ^ f.emin := by
  obtain ⟨hu0, hη0, hη1, hη2, hM⟩ := stat_consts hf
  have hA : 0 ≤ A := (abs_nonneg _).trans hp
  have hB : 0 ≤ B := (abs_nonneg _).trans hq
  obtain ⟨d, hd, ed⟩ := sub_near hf hn1 hnu hmA hx ha hp hma ea
  obtain ⟨e, he, ee⟩ := sub_near hf hn1 hnu hmB hy hb hq hmb eb
  have hx2 : |p - ma| ≤ 2 * A := ((abs_sub p ma).trans (add_le_add hp hma)).trans (by linarith)
  have hy2 : |q - mb| ≤ 2 * B := ((abs_sub q mb).trans (add_le_add hq hmb)).trans (by linarith)
  have hr := srnd_err (f := f) (d * e)
  rw [div_eq_mul_one_div] at hr
  obtain ⟨h1, h2, h3⟩ := term_arith hu0 hη0 hη1 hn1 hnu hA hB hx2 hy2 ed ee hr
  refine ⟨_, mul_stands hf hd he (h2.trans ?_), h1, h3⟩
  have hAB : 0 ≤ A * B := by positivity
  have k1 : A * B ≤ n * (A * B) := by nlinarith
  have k2 : A ≤ n * A := by nlinarith
  have k3 : B ≤ n * B := by nlinarith
  have k4 : 2 ^ f.emin * (A + B) ≤ 1 / 1000 * (A + B) := mul_le_mul_of_nonneg_right hη1 (by linarith)
  linarith

theorem terms_near (hf : f = .double ∨ f = .single) {n : ℚ} (hn1 : 1 ≤ n) (hnu : n * (1 / 2 ^ f.prec) ≤ 1 / 1000) (hmA : 8 * (n * A) ≤ f.maxVal)
    (hmB : 8 * (n * B) ≤ f.maxVal) (hmAB : 8 * (n * (A * B)) ≤ f.maxVal) {a b : Flt} {a' b' ma mb : ℚ}
    (ha : Stands f a a') (hb : Stands f b b') (hma : |ma| ≤ A) (hmb : |mb| ≤ B)
    (ea : |a' - ma| ≤ 8 / 7 * (n * (1 / 2 ^ f.prec)) * A + 2 ^ f.emin / 2) (eb : |b' - mb| ≤ 8 / 7 * (n * (1 / 2 ^ f.prec)) * B + 2 ^ f.emin / 2)
    (hv : List.Forall₂ (Stands f) v p) : ∀ {w : List Flt} {q : List ℚ}, List.Forall₂ (Stands f) w q → v.length = w.length →
    (∀ x ∈ p, |x| ≤ A) → (∀ x ∈ q, |x| ≤ B) →
    ∃ t : List ℚ, List.Forall₂ (Stands f) (List.zipWith (devTerm f a b) v w) t ∧ t.length = p.length ∧
      |t.sum - deviations ma mb p q| ≤ p.length * (17 * (n * (1 / 2 ^ f.prec) * (A * B)) + 122 / 100 * (2 ^ f.emin * (A + B)) + 3 / 5 * 2 ^ f.emin) ∧
      ∀ x ∈ t, |x| ≤ 402 / 100 * (A * B) + 122 / 100 * (2 ^ f.emin * (A + B)) + 3 / 5 * 2 ^ f.emin := by
  induction hv with
  | nil =>
    intro w q hw hl _ _
    cases hw
    · exact ⟨[], .nil, rfl, by simp [deviations], by simp⟩
    · simp at hl
  | @cons x x' v p hx hv ih =>
    intro w q hw hl hA hB
    cases hw with
    | nil => simp at hl
    | @cons y y' w q hy hw =>
      obtain ⟨t, t1, t2, t3⟩ := devTerm_near hf hn1 hnu hmA hmB hmAB hx hy ha hb (hA _ (by simp)) (hB _ (by simp)) hma hmb ea eb
      obtain ⟨ts, s1, s2, s3, s4⟩ := ih hw (by simpa using hl) (fun x hx => hA x (by simp [hx])) fun x hx => hB x (by simp [hx])
      refine ⟨t :: ts, .cons t1 s1, by simp [s2], ?_, ?_⟩
      · simp only [deviations, List.zipWith_cons_cons, List.sum_cons, List.length_cons] at s3 ⊢
        generalize 17 * (n * (1 / 2 ^ f.prec) * (A * B)) + 122 / 100 * (2 ^ f.emin * (A + B)) + 3 / 5 * 2 ^ f.emin = E at *
        generalize (List.zipWith (fun x y => (x - ma) * (y - mb)) p q).sum = D at *
        have e : t + ts.sum - ((x' - ma) * (y' - mb) + D) = (t - (x' - ma) * (y' - mb)) + (ts.sum - D) := by ring
        rw [e]
        have e2 : ((p.length + 1 : Nat) : ℚ) * E = E + p.length * E := by push_cast; ring
        rw [e2]
        exact (abs_add_le _ _).trans (add_le_add t2 s3)
      · intro z hz
        rcases List.mem_cons.1 hz with rfl | hz
        · exact t3
        · exact s4 z hz

/-- The sum of the products of deviations. -/
theorem devSum_near (hf : f = .double ∨ f = .single) (hv : List.Forall₂ (Stands f) v p) (hw : List.Forall₂ (Stands f) w q) (hl : v.length = w.length)
    (h0 : p ≠ []) (hA : ∀ x ∈ p, |x| ≤ A) (hB : ∀ x ∈ q, |x| ≤ B) (hnu : (p.length : ℚ) * (1 / 2 ^ f.prec) ≤ 1 / 1000)
    (hmA : 8 * (p.length * A) ≤ f.maxVal) (hmB : 8 * (p.length * B) ≤ f.maxVal) (hmAB : 8 * (p.length * (A * B)) ≤ f.maxVal) :
    ∃ s, Stands f (devSum f (average f v) (average f w) v w) s ∧
      |s - deviations (mean p) (mean q) p q| ≤ p.length * (22 * (p.length * (1 / 2 ^ f.prec) * (A * B)) + 2 * (2 ^ f.emin * (A + B + 1))) := by
  have hlv := hv.length_eq
  have hlw := hw.length_eq
  have hpq : q.length = p.length := by omega
  have hq0 : q ≠ [] := by rw [← List.length_pos_iff] at h0 ⊢; omega
  obtain ⟨hu0, hη0, hη1, hη2, hM⟩ := stat_consts hf
  have hn1 : (1 : ℚ) ≤ p.length := by
    have : 0 < p.length := List.length_pos_iff.2 h0
    exact_mod_cast this
  obtain ⟨a, ha, ea⟩ := mean_near hf hv h0 hA hnu hmA
  obtain ⟨b, hb, eb⟩ := mean_near hf hw hq0 hB (by rw [hpq]; exact hnu) (by rw [hpq]; exact hmB)
  rw [hpq] at eb
  obtain ⟨t, t1, t2, t3, t4⟩ := terms_near hf hn1 hnu hmA hmB hmAB ha hb (mean_abs_le h0 hA) (mean_abs_le hq0 hB) ea eb hv hw hl hA hB
  have hA0 : 0 ≤ A := (abs_nonneg _).trans (mean_abs_le h0 hA)
  have hB0 : 0 ≤ B := (abs_nonneg _).trans (mean_abs_le hq0 hB)
  have hS := sum_abs_le t4
  rw [t2] at hS
  have hS0 : 0 ≤ (t.map abs).sum := List.sum_nonneg (by
    intro z hz; obtain ⟨w, -, rfl⟩ := List.mem_map.1 hz; exact abs_nonneg w)
  have hlen : (List.zipWith (devTerm f (average f v) (average f w)) v w).length = p.length := by
    rw [List.length_zipWith]; omega
  have hpow := one_add_pow_le hu0.le p.length (by linarith)
  have hpow1 : 1 ≤ (1 + 1 / (2 : ℚ) ^ f.prec) ^ p.length := one_le_pow₀ (by linarith)
  have hAB : 0 ≤ A * B := by positivity
  have k4 : 2 ^ f.emin * (A + B) ≤ 1 / 1000 * (A + B) := mul_le_mul_of_nonneg_right hη1 (by linarith)
  have hT : (t.map abs).sum ≤ p.length * (402 / 100 * (A * B)) + 122 / 100000 * (p.length * A + p.length * B) + 3 / 5 * (p.length * 2 ^ f.emin) := by
    refine hS.trans ?_
    have := mul_le_mul_of_nonneg_left k4 (show (0 : ℚ) ≤ p.length by linarith)
    linarith
  have hpη : (p.length : ℚ) * 2 ^ f.emin ≤ 1 := by
    obtain ⟨h24, -, -, -⟩ := fmt_consts hf
    have hp : (p.length : ℚ) ≤ 2 ^ f.prec / 1000 := by
      rw [mul_one_div, div_le_iff₀ (by positivity)] at hnu
      linarith
    have hpe : (2 : ℚ) ^ f.prec * 2 ^ f.emin ≤ 1 := by
      rcases hf with rfl | rfl
      · show (2 : ℚ) ^ 53 * 2 ^ (-1074 : Int) ≤ 1
        rw [zpow_neg, ← div_eq_mul_inv]
        exact div_le_one_of_le₀ (by exact_mod_cast pow_le_pow_right₀ (by norm_num : (1 : ℚ) ≤ 2) (by norm_num : 53 ≤ 1074)) (by positivity)
      · show (2 : ℚ) ^ 24 * 2 ^ (-149 : Int) ≤ 1
        norm_num
    have := mul_le_mul_of_nonneg_right hp hη0.le
    linarith
  obtain ⟨s, hs, es⟩ := foldl_add_err hf t1 (zero_stands f hf false) (by
    rw [hlen, abs_zero, zero_add]
    have h2 : (1 + 1 / (2 : ℚ) ^ f.prec) ^ p.length ≤ 101 / 100 := by linarith
    have := mul_le_mul hT h2 (by linarith) (by positivity)
    linarith)
  refine ⟨s, hs, ?_⟩
  rw [hlen, abs_zero, zero_add, zero_add] at es
  have h1 := mul_le_mul (show (1 + 1 / (2 : ℚ) ^ f.prec) ^ p.length - 1 ≤ 8 / 7 * (p.length * (1 / 2 ^ f.prec)) by linarith) hS hS0 (by positivity)
  have e : s - deviations (mean p) (mean q) p q = (s - t.sum) + (t.sum - deviations (mean p) (mean q) p q) := by ring
  rw [e]
  refine (abs_add_le _ _).trans ((add_le_add (es.trans h1) t3).trans ?_)
  generalize (2 : ℚ) ^ f.emin = η at *
  generalize (p.length : ℚ) = n at *
  generalize 1 / (2 : ℚ) ^ f.prec = u at *
  have hw0 : 0 ≤ n * u := by positivity
  have j1 : n * u * (η * (A + B)) ≤ 1 / 1000 * (η * (A + B)) := mul_le_mul_of_nonneg_right hnu (by positivity)
  have j2 : n * u * η ≤ 1 / 1000 * η := mul_le_mul_of_nonneg_right hnu hη0.le
  have e1 : 8 / 7 * (n * u) * (n * (402 / 100 * (A * B) + 122 / 100 * (η * (A + B)) + 3 / 5 * η)) =
      n * (8 / 7 * (402 / 100) * (n * u * (A * B)) + 8 / 7 * (122 / 100) * (n * u * (η * (A + B))) + 8 / 7 * (3 / 5) * (n * u * η)) := by ring
  rw [e1, ← mul_add]
  refine mul_le_mul_of_nonneg_left ?_ (by linarith)
  have hwAB : 0 ≤ n * u * (A * B) := by positivity
  have hηAB : 0 ≤ η * (A + B) := by positivity
  have e2 : η * (A + B + 1) = η * (A + B) + η := by ring
  rw [e2]
  linarith

end Near

/-! ## The loops -/

section Loops

variable {f : Fmt} {L : Type} [DecidableEq L]

theorem fmeansCols_eq (s : Storage Flt L) (X : Nat → Flt) (row : Nat) (hX : ∀ c < s.channels, s.get row c = .ok (X c)) (n : Nat) : ∀ (col : Nat)
    (_ : col + n = s.channels) (g : Nat → Flt), FloatMath.meansCols f s row n col ((List.range s.channels).map g) =
      .ok ((List.range s.channels).map fun c => if col ≤ c then f.add (g c) (X c) else g c) := by
  induction n with
  | zero =>
    intro col hn g
    rw [FloatMath.meansCols]
    congr 1
    apply List.map_congr_left
    intro c hc
    rw [List.mem_range] at hc
    rw [if_neg (by omega)]
  | succ n ih =>
    intro col hn g
    rw [FloatMath.meansCols, hX col (by omega), Res.bind_ok, vget_map_range _ _ _ (by omega), Res.bind_ok, vset_map_range _ _ _ _ (by omega), Res.bind_ok,
      ih (col + 1) (by omega)]
    congr 1
    apply List.map_congr_left
    intro c _
    by_cases h1 : c = col
    · rw [if_neg (by omega), if_pos h1, if_pos (by omega), h1]
    · by_cases h2 : col + 1 ≤ c
      · rw [if_pos h2, if_neg h1, if_pos (by omega)]
      · rw [if_neg h2, if_neg h1, if_neg (by omega)]

theorem fmeansRows_eq (s : Storage Flt L) (X : Nat → Nat → Flt) (hX : ∀ r < s.frames, ∀ c < s.channels, s.get r c = .ok (X r c)) (n : Nat) :
    ∀ (row : Nat) (_ : row + n = s.frames) (g : Nat → Flt), FloatMath.meansRows f s n row ((List.range s.channels).map g) =
      .ok ((List.range s.channels).map fun c => ((List.range' row n).map fun r => X r c).foldl f.add (g c)) := by
  induction n with
  | zero => intro row _ g; simp [FloatMath.meansRows]
  | succ n ih =>
    intro row hn g
    rw [FloatMath.meansRows, fmeansCols_eq s (X row) row (hX row (by omega)) s.channels 0 (by omega), Res.bind_ok, ih (row + 1) (by omega)]
    congr 1

/-- The values of a channel as a function of the frame. -/
theorem channel_get {s : Storage Flt L} {c : Nat} {v : List Flt} (h : Channel s c v) (d : Flt) :
    (∀ r < s.frames, s.get r c = .ok (v.getD r d)) ∧ (List.range' 0 s.frames).map (fun r => v.getD r d) = v := by
  constructor
  · intro r hr
    have hr' : r < v.length := by rw [h.1]; exact hr
    rw [h.2 r v[r] (List.getElem?_eq_getElem hr')]
    rw [List.getD_eq_getElem?_getD, List.getElem?_eq_getElem hr', Option.getD_some]
  · rw [← h.1]
    apply List.ext_getElem (by simp)
    intro i h1 h2
    simp [h2]

theorem fchannelMeans_eq (s : Storage Flt L) (V : Nat → List Flt) (hV : ∀ c < s.channels, Channel s c (V c)) :
    FloatMath.channelMeans f s = .ok ((List.range s.channels).map fun c => average f (V c)) := by
  unfold FloatMath.channelMeans
  have : List.replicate s.channels (Flt.fin false 0) = (List.range s.channels).map fun _ => .fin false 0 := by simp [List.map_const']
  rw [this, fmeansRows_eq s (fun r c => (V c).getD r (.fin false 0)) (fun r hr c hc => (channel_get (hV c hc) _).1 r hr) s.frames 0 (by omega),
    Res.bind_ok, List.map_map]
  congr 1
  apply List.map_congr_left
  intro c hc
  have hc := hV c (List.mem_range.1 hc)
  simp only [Function.comp]
  rw [(channel_get hc _).2]
  unfold average
  rw [hc.1]

omit [DecidableEq L] in
theorem fcovSum_eq (s : Storage Flt L) (X : Nat → Nat → Flt) (hX : ∀ r < s.frames, ∀ c < s.channels, s.get r c = .ok (X r c)) (m : Nat → Flt)
    (row col : Nat) (hr : row < s.channels) (hc : col < s.channels) (n : Nat) : ∀ (i : Nat) (_ : i + n = s.frames) (v : Flt),
    FloatMath.covSum f s ((List.range s.channels).map m) row col n i v =
      .ok (((List.range' i n).map fun r => devTerm f (m row) (m col) (X r row) (X r col)).foldl f.add v) := by
  induction n with
  | zero => intro i _ v; simp [FloatMath.covSum]
  | succ n ih =>
    intro i hn v
    rw [FloatMath.covSum, hX i (by omega) row hr, Res.bind_ok, vget_map_range _ _ _ hr, Res.bind_ok, hX i (by omega) col hc, Res.bind_ok,
      vget_map_range _ _ _ hc, Res.bind_ok, ih (i + 1) (by omega), List.range'_succ, List.map_cons, List.foldl_cons]
    rfl

/-- A cell of the table. -/
def covCell (f : Fmt) (v w : List Flt) : Flt := f.div (devSum f (average f v) (average f w) v w) (f.ofRat v.length)

theorem zipWith_range {α β γ : Type} (g : α → β → γ) (v : List α) (w : List β) (n : Nat) (hv : v.length = n) (hw : w.length = n) (a : α) (b : β) :
    (List.range' 0 n).map (fun r => g (v.getD r a) (w.getD r b)) = List.zipWith g v w := by
  subst hv
  apply List.ext_getElem (by simp [hw])
  intro i h1 h2
  have h3 : i < v.length := by simpa using h1
  have h4 : i < w.length := by omega
  simp [h3, h4]

theorem fcov_cell (s : Storage Flt L) (V : Nat → List Flt) (hV : ∀ c < s.channels, Channel s c (V c)) (i j : Nat) (hi : i < s.channels)
    (hj : j < s.channels) : ∃ v, FloatMath.covSum f s ((List.range s.channels).map fun c => average f (V c)) i j s.frames 0 (.fin false 0) = .ok v ∧
      f.div v (f.ofRat s.frames) = covCell f (V i) (V j) := by
  refine ⟨_, fcovSum_eq s (fun r c => (V c).getD r (.fin false 0)) (fun r hr c hc => (channel_get (hV c hc) _).1 r hr) _ i j hi hj s.frames 0 (by omega) _, ?_⟩
  unfold covCell devSum
  rw [zipWith_range (devTerm f _ _) (V i) (V j) s.frames (hV i hi).1 (hV j hj).1, (hV i hi).1]

theorem fcovCols_inv (s : Storage Flt L) (V : Nat → List Flt) (hV : ∀ c < s.channels, Channel s c (V c)) (row : Nat) (hr : row < s.channels) (n : Nat) :
    ∀ (col : Nat) (_ : col + n = s.channels) (t : Table Flt L) (_ : CovInv s.channels row col (fun i j => covCell f (V i) (V j)) t),
    ∃ t', FloatMath.covCols f s ((List.range s.channels).map fun c => average f (V c)) row n col t = .ok t' ∧
      CovInv s.channels (row + 1) 0 (fun i j => covCell f (V i) (V j)) t' := by
  induction n with
  | zero =>
    intro col hn t h
    refine ⟨t, rfl, h.1, h.2.1, h.2.2.1, ?_⟩
    intro r c hc hr' hd
    apply h.2.2.2 r c hc hr'
    omega
  | succ n ih =>
    intro col hn t h
    obtain ⟨t', h1, h2⟩ := put_cov s.channels row col _ t hr (by omega) h
    obtain ⟨t'', h3, h4⟩ := ih (col + 1) (by omega) t' h2
    refine ⟨t'', ?_, h4⟩
    obtain ⟨v, e1, e2⟩ := fcov_cell (f := f) s V hV row col hr (by omega)
    rw [FloatMath.covCols, e1, Res.bind_ok, e2, h1, Res.bind_ok, h3]

theorem fcovRows_inv (s : Storage Flt L) (V : Nat → List Flt) (hV : ∀ c < s.channels, Channel s c (V c)) (n : Nat) :
    ∀ (row : Nat) (_ : row + n = s.channels) (t : Table Flt L) (_ : CovInv s.channels row 0 (fun i j => covCell f (V i) (V j)) t),
    ∃ t', FloatMath.covRows f s ((List.range s.channels).map fun c => average f (V c)) n row t = .ok t' ∧
      CovInv s.channels s.channels 0 (fun i j => covCell f (V i) (V j)) t' := by
  induction n with
  | zero =>
    intro row hn t h
    obtain rfl : row = s.channels := by omega
    exact ⟨t, rfl, h⟩
  | succ n ih =>
    intro row hn t h
    obtain ⟨t', h1, h2⟩ := fcovCols_inv s V hV row (by omega) s.channels 0 (by omega) t h
    obtain ⟨t'', h3, h4⟩ := ih (row + 1) (by omega) t' h2
    exact ⟨t'', by rw [FloatMath.covRows, h1, Res.bind_ok, h3], h4⟩

theorem fcovariance_eq (dl : L) (s : Storage Flt L) (V : Nat → List Flt) (hV : ∀ c < s.channels, Channel s c (V c)) :
    ∃ t, FloatMath.covariance f dl s = .ok t ∧ t.rows.size = s.channels ∧ t.cols.size = s.channels ∧
      ∀ i < s.channels, ∀ j < s.channels, t.get i j = .ok (covCell f (V i) (V j)) := by
  obtain ⟨t, h1, h2⟩ := fcovRows_inv (f := f) s V hV s.channels 0 (by omega)
    (Table.new dl (.fin false 0) s.channels s.channels) ⟨by simp [Table.new, Header.new, Header.size], by simp [Table.new, Header.new, Header.size],
      by simp [Table.new], by intro r c _ _ h; omega⟩
  refine ⟨t, ?_, h2.1, h2.2.1, ?_⟩
  · unfold FloatMath.covariance
    rw [fchannelMeans_eq s V hV, Res.bind_ok, h1]
  · intro i hi j hj
    unfold Table.get vget
    rw [if_pos ⟨by rw [h2.1]; exact hi, by rw [h2.2.1]; exact hj⟩, h2.2.1, h2.2.2.2 i j hj hi (Or.inl hi)]

theorem fregressionLoop_eq (a b : Flt) (v : List Flt) : ∀ (w : List Flt) (_ : v.length = w.length) (num den : Flt),
    FloatMath.regressionLoop f a b (v.zip w) num den =
      ((List.zipWith (devTerm f a b) v w).foldl f.add num, (List.zipWith (devTerm f a a) v v).foldl f.add den) := by
  induction v with
  | nil => intro w _ num den; rfl
  | cons x v ih =>
    intro w hl num den
    cases w with
    | nil => simp at hl
    | cons y w =>
      rw [List.zip_cons_cons, FloatMath.regressionLoop, ih w (by simpa using hl)]
      rfl

end Loops

/-! ## Signs -/

/-- Zero or more, infinity, or not a number. -/
def NoMinus (x : Flt) : Prop := (∃ m, 0 ≤ m ∧ x = .fin false m) ∨ x = .inf false ∨ ∃ s, x = .nan s

theorem NoMinus.result (f : Fmt) {q : ℚ} (h : 0 ≤ q) : NoMinus (f.result false q) := by
  unfold Fmt.result
  have hs : (if q = 0 then false else decide (q < 0)) = false := by
    by_cases h0 : q = 0
    · rw [if_pos h0]
    · rw [if_neg h0, decide_eq_false (not_lt.2 h)]
  simp only [hs]
  have hp := result_proper f false q
  unfold Fmt.result at hp
  simp only [hs] at hp
  by_cases hm : f.maxVal < f.rnd |q|
  · rw [if_pos hm]; exact .inr (.inl rfl)
  · rw [if_neg hm] at hp ⊢; exact .inl ⟨_, hp _ _ rfl, rfl⟩

theorem NoMinus.square (f : Fmt) (x : Flt) : NoMinus (f.mul x x) := by
  rcases x with ⟨s, m⟩ | s | s
  · have : f.mul (.fin s m) (.fin s m) = f.result false (m * m) := by simp [Fmt.mul]
    rw [this]
    exact NoMinus.result f (mul_self_nonneg m)
  · simp [Fmt.mul, NoMinus]
  · simp [Fmt.mul, NoMinus]

theorem NoMinus.add (f : Fmt) {x y : Flt} (hx : NoMinus x) (hy : NoMinus y) : NoMinus (f.add x y) := by
  rcases hx with ⟨m, hm, rfl⟩ | rfl | ⟨s, rfl⟩ <;> rcases hy with ⟨n, hn, rfl⟩ | rfl | ⟨t, rfl⟩
  · exact NoMinus.result f (by simpa using add_nonneg hm hn)
  all_goals simp [Fmt.add, NoMinus]

theorem NoMinus.div (f : Fmt) {x y : Flt} (hx : NoMinus x) (hy : NoMinus y) : NoMinus (f.div x y) := by
  rcases hx with ⟨m, hm, rfl⟩ | rfl | ⟨s, rfl⟩ <;> rcases hy with ⟨n, hn, rfl⟩ | rfl | ⟨t, rfl⟩
  · simp only [Fmt.div]
    by_cases h : n = 0
    · rw [if_pos h]
      by_cases h2 : m = 0
      · rw [if_pos h2]; exact .inr (.inr ⟨_, rfl⟩)
      · rw [if_neg h2]; exact .inr (.inl rfl)
    · rw [if_neg h]
      exact NoMinus.result f (by simpa using div_nonneg hm hn)
  all_goals simp [Fmt.div, NoMinus]

theorem NoMinus.sum (f : Fmt) (l : List Flt) : ∀ x, NoMinus x → (∀ y ∈ l, NoMinus y) → NoMinus (l.foldl f.add x) := by
  induction l with
  | nil => intro x hx _; exact hx
  | cons y l ih => intro x hx h; exact ih _ (hx.add f (h y (by simp))) fun y hy => h y (by simp [hy])

theorem NoMinus.not_below {x : Flt} (h : NoMinus x) : ¬ Below x (.fin false 0) := by
  rw [← lt_iff]
  rcases h with ⟨m, hm, rfl⟩ | rfl | ⟨s, rfl⟩ <;> simp [Flt.lt]
  exact hm

theorem NoMinus.zero : NoMinus (.fin false 0) := .inl ⟨0, le_refl _, rfl⟩

theorem devSum_noMinus (f : Fmt) (a : Flt) (v : List Flt) : NoMinus (devSum f a a v v) := by
  refine NoMinus.sum f _ _ NoMinus.zero ?_
  intro y hy
  obtain ⟨x, -, rfl⟩ : ∃ x ∈ v, devTerm f a a x x = y := by
    obtain ⟨i, hi, rfl⟩ := List.getElem_of_mem hy
    exact ⟨v[i]'(by simpa using hi), by simp, by simp⟩
  exact NoMinus.square f _

theorem devSum_comm (f : Fmt) (a b : Flt) (v w : List Flt) : devSum f a b v w = devSum f b a w v := by
  unfold devSum
  rw [List.zipWith_comm]
  congr 2
  funext x y
  exact f.mul_comm _ _

/-! ## Values that are not finite -/

/-- The value is the same infinity, or not a number. -/
def Infected (s : Bool) (x : Flt) : Prop := x = .inf s ∨ ∃ t, x = .nan t

theorem add_infected (f : Fmt) {s : Bool} {x : Flt} (y : Flt) (h : Infected s x) : Infected s (f.add x y) := by
  rcases h with rfl | ⟨t, rfl⟩
  · rcases y with ⟨t, n⟩ | t | t
    · exact .inl rfl
    · by_cases h : s = t
      · subst h; exact .inl (by simp [Fmt.add])
      · exact .inr ⟨false, by simp [Fmt.add, h]⟩
    · exact .inr ⟨_, rfl⟩
  · exact .inr ⟨false, by cases y <;> rfl⟩

theorem foldl_infected (f : Fmt) {s : Bool} (l : List Flt) : ∀ x, Infected s x → Infected s (l.foldl f.add x) := by
  induction l with
  | nil => intro x h; exact h
  | cons y l ih => intro x h; exact ih _ (add_infected f y h)

theorem add_inf_infected (f : Fmt) (s : Bool) (x : Flt) : Infected s (f.add x (.inf s)) := by
  rcases x with ⟨t, n⟩ | t | t
  · exact .inl rfl
  · by_cases h : t = s
    · subst h; exact .inl (by simp [Fmt.add])
    · exact .inr ⟨false, by simp [Fmt.add, h]⟩
  · exact .inr ⟨_, rfl⟩

/-- The deviation of an infinite value, or of one that is not a number, from the mean is not a number. -/
theorem dev_notNumber (f : Fmt) {v : List Flt} {x : Flt} (hx : x ∈ v) (h : NotFinite x) : NotNumber (f.sub x (average f v)) := by
  have hsum : ∀ (l : List Flt) (y : Flt), x ∈ l → ∀ s, x = .inf s → Infected s (l.foldl f.add y) := by
    intro l
    induction l with
    | nil => intro y h; cases h
    | cons z l ih =>
      intro y h s hs
      rcases List.mem_cons.1 h with rfl | h
      · subst hs; exact foldl_infected f l _ (add_inf_infected f s y)
      · exact ih _ h s hs
  rw [notFinite_iff] at h
  rw [notNumber_iff]
  rcases x with ⟨s, m⟩ | s | s
  · exact absurd rfl (h s m)
  · have h1 := hsum v (.fin false 0) hx s rfl
    have h2 : Infected s (average f v) := by
      unfold average
      have hn := NoMinus.result f (show (0 : ℚ) ≤ v.length by positivity)
      change NoMinus (f.ofRat _) at hn
      rcases h1 with h1 | ⟨t, h1⟩ <;> rw [h1]
      · rcases hn with ⟨m, -, hn⟩ | hn | ⟨t, hn⟩ <;> rw [hn]
        · exact .inl (by cases s <;> rfl)
        · exact .inr ⟨_, rfl⟩
        · exact .inr ⟨_, rfl⟩
      · exact .inr ⟨false, by rcases hn with ⟨m, -, hn⟩ | hn | ⟨t, hn⟩ <;> rw [hn] <;> rfl⟩
    rcases h2 with h2 | ⟨t, h2⟩ <;> rw [h2]
    · exact ⟨false, by cases s <;> rfl⟩
    · exact ⟨_, rfl⟩
  · exact ⟨false, by unfold Fmt.sub; cases (average f v).neg <;> rfl⟩

theorem foldl_notNumber (f : Fmt) (l : List Flt) : ∀ y : Flt, (NotNumber y ∨ ∃ x ∈ l, NotNumber x) → NotNumber (l.foldl f.add y) := by
  induction l with
  | nil => rintro y (h | ⟨x, hx, _⟩); exacts [h, by cases hx]
  | cons z l ih =>
    rintro y (h | ⟨x, hx, h⟩)
    · exact ih _ (.inl (add_notNumber f (.inl h)))
    · rcases List.mem_cons.1 hx with rfl | hx
      · exact ih _ (.inl (add_notNumber f (.inr h)))
      · exact ih _ (.inr ⟨x, hx, h⟩)

theorem devSum_notNumber (f : Fmt) (b : Flt) {v w : List Flt} (hl : v.length = w.length) {x : Flt} (hx : x ∈ v) (h : NotFinite x) :
    NotNumber (devSum f (average f v) b v w) := by
  have hd := dev_notNumber f hx h
  obtain ⟨i, hi, rfl⟩ := List.getElem_of_mem hx
  refine foldl_notNumber f _ _ (.inr ⟨devTerm f (average f v) b v[i] (w[i]'(by omega)), ?_, ?_⟩)
  · rw [List.mem_iff_getElem]
    exact ⟨i, by simp; omega, by simp⟩
  · unfold devTerm
    rw [f.mul_comm]
    exact mul_notNumber f hd

theorem div_notNumber (f : Fmt) {x y : Flt} (h : NotNumber x) : NotNumber (f.div x y) := by
  rw [notNumber_iff] at h ⊢
  obtain ⟨s, rfl⟩ := h
  exact ⟨false, by cases y <;> rfl⟩

end Flut
