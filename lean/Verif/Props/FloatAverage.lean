import Verif.Model.FloatAverage
import Verif.Props.FloatMean
import Verif.Props.FloatPoly

/-! # Property theorems: running averages in floating-point arithmetic (C125) -/

namespace Flut

open Spec FloatMath

/-! ## Sums of products -/

theorem one_add_pow_le {u : ℚ} (hu : 0 ≤ u) : ∀ m : Nat, m * u ≤ 1 / 8 → (1 + u) ^ m ≤ 1 + 8 / 7 * (m * u)
  | 0, _ => by simp
  | m + 1, h => by
    push_cast at h ⊢
    have h' : m * u ≤ 1 / 8 := by linarith
    have ih := one_add_pow_le hu m h'
    have h1 := mul_le_mul_of_nonneg_right ih (show 0 ≤ 1 + u by linarith)
    have h2 := mul_le_mul_of_nonneg_right h' hu
    rw [pow_succ]
    linarith

/-- What the two sums of an average are worth after `m` values, whose products with their weights are rounded with an absolute error of at most `c`. -/
def AvgNear (f : Fmt) (c : ℚ) (m : Nat) (a : Avg Flt) (S A ω : ℚ) : Prop :=
  ∃ s w, Stands f a.totV s ∧ Stands f a.totW w ∧ |s - S| ≤ ((1 + 1 / 2 ^ f.prec) ^ (m + 1) - 1) * A + m * c * (1 + 1 / 2 ^ f.prec) ^ m ∧
    |w - ω| ≤ ((1 + 1 / 2 ^ f.prec) ^ m - 1) * ω

theorem avgNear_add {f : Fmt} (hf : f = .double ∨ f = .single) {c : ℚ} (hc : 0 ≤ c) {m : Nat} {a : Avg Flt} {S A ω : ℚ} (h : AvgNear f c m a S A ω)
    (hS : |S| ≤ A) (hω : 0 ≤ ω) {v w : Flt} {x y : ℚ} (hv : Stands f v x) (hw : Stands f w y) (hy : 0 ≤ y)
    (hr : |f.srnd (y * x) - y * x| ≤ |y * x| / 2 ^ f.prec + c)
    (m1 : (A + |y * x|) * (1 + 1 / 2 ^ f.prec) ^ (m + 2) + (m + 1) * c * (1 + 1 / 2 ^ f.prec) ^ (m + 1) ≤ f.maxVal)
    (m2 : (ω + y) * (1 + 1 / 2 ^ f.prec) ^ (m + 1) ≤ f.maxVal) :
    AvgNear f c (m + 1) (avgAdd f a v w) (S + y * x) (A + |y * x|) (ω + y) := by
  obtain ⟨s, t, hs, ht, e1, e2⟩ := h
  have hp := prec_pos hf
  have er := fun q h => srnd_rel (f := f) hp (q := q) h
  have hA : 0 ≤ A := (abs_nonneg _).trans hS
  obtain ⟨u, hu⟩ : ∃ u : ℚ, u = 1 / 2 ^ f.prec := ⟨_, rfl⟩
  have hu0 : 0 < u := by rw [hu]; positivity
  have hdiv : ∀ q : ℚ, q / 2 ^ f.prec = q * u := fun q => by rw [hu]; ring
  simp only [hdiv] at er hr
  unfold AvgNear
  rw [← hu] at m1 m2 e1 e2 ⊢
  obtain ⟨G, hG⟩ : ∃ G : ℚ, G = (1 + u) ^ m := ⟨_, rfl⟩
  have hG1 : 1 ≤ G := by rw [hG]; exact one_le_pow₀ (by linarith)
  have p1 : (1 + u) ^ (m + 1) = G * (1 + u) := by rw [pow_succ, ← hG]
  have p2 : (1 + u) ^ (m + 2) = G * (1 + u) * (1 + u) := by rw [pow_succ, p1]
  rw [p1, p2] at m1
  rw [p1] at m2
  rw [p1, ← hG] at e1
  rw [← hG] at e2
  rw [show m + 1 + 1 = m + 2 from rfl, p2, p1]
  have hZ : 0 ≤ |y * x| := abs_nonneg _
  have hmc : 0 ≤ (m : ℚ) * c := by positivity
  have hmcG : 0 ≤ (m : ℚ) * c * G := by positivity
  have b1 : 1 + u ≤ G * (1 + u) := le_mul_of_one_le_left (by linarith) hG1
  have hGu : 1 ≤ G * (1 + u) := by linarith
  have b2 : (1 + u) * (1 + u) ≤ G * (1 + u) * (1 + u) := mul_le_mul_of_nonneg_right b1 (by linarith)
  have b3 : 1 + u ≤ G * (1 + u) * (1 + u) := le_mul_of_one_le_left (by linarith) hGu
  have hGuu : 1 ≤ G * (1 + u) * (1 + u) := by linarith
  have k1 := mul_le_mul_of_nonneg_left hGuu hA
  have k2 := mul_le_mul_of_nonneg_left hGuu hZ
  have k3 := mul_le_mul_of_nonneg_left hGu hc
  have k4 := mul_nonneg hmcG hu0.le
  have hsabs : |s| ≤ G * (1 + u) * A + m * c * G := by
    have := abs_sub_le s S 0
    rw [sub_zero, sub_zero] at this
    linarith
  have habs : |y * x| ≤ f.maxVal := by
    have : 0 ≤ ((m : ℚ) + 1) * c * (G * (1 + u)) := by positivity
    linarith
  have P := mul_stands hf hw hv habs
  set p := f.srnd (y * x) with hpdef
  have hpabs : |p| ≤ |y * x| * (1 + u) + c := by
    have := abs_sub_le p (y * x) 0
    rw [sub_zero, sub_zero] at this
    linarith
  have k5 := mul_le_mul_of_nonneg_left b3 hZ
  have k6 : G * (1 + u) * A ≤ G * (1 + u) * (1 + u) * A := by
    have : 0 ≤ G * (1 + u) * A * u := by positivity
    linarith
  have hsum : |s + p| ≤ f.maxVal := by
    have := abs_add_le s p
    linarith
  have Q := add_stands hf hs P hsum
  have eq := er (s + p) (multiple_add (binary_mul hs.binary) (binary_mul P.binary))
  have htabs : |t| ≤ G * ω := by
    have := abs_sub_le t ω 0
    rw [sub_zero, sub_zero, abs_of_nonneg hω] at this
    linarith
  have k7 := mul_le_mul_of_nonneg_left hGu hy
  have k8 : G * ω ≤ G * (1 + u) * ω := by
    have : 0 ≤ G * ω * u := by positivity
    linarith
  have hsum2 : |t + y| ≤ f.maxVal := by
    have := abs_add_le t y
    rw [abs_of_nonneg hy] at this
    linarith
  have R := add_stands hf ht hw hsum2
  have eR := er (t + y) (multiple_add (binary_mul ht.binary) (binary_mul hw.binary))
  refine ⟨_, _, Q, R, ?_, ?_⟩
  · have t1 := abs_sub_le (f.srnd (s + p)) (s + p) (S + y * x)
    have t2 : |s + p - (S + y * x)| ≤ |s - S| + |p - y * x| := by
      rw [show s + p - (S + y * x) = (s - S) + (p - y * x) by ring]
      exact abs_add_le _ _
    have t3 := mul_le_mul_of_nonneg_right ((abs_add_le s p).trans (add_le_add hsabs hpabs)) hu0.le
    push_cast
    have k9 := mul_le_mul_of_nonneg_left b2 hZ
    have k10 := mul_le_mul_of_nonneg_left b1 hc
    linarith
  · have t1 := abs_sub_le (f.srnd (t + y)) (t + y) (ω + y)
    have t2 : |t + y - (ω + y)| = |t - ω| := by rw [show t + y - (ω + y) = t - ω by ring]
    have t3 := mul_le_mul_of_nonneg_right ((abs_add_le t y).trans (add_le_add htabs (le_of_eq (abs_of_nonneg hy)))) hu0.le
    have k9 := mul_le_mul_of_nonneg_left b1 hy
    linarith

/-- A list of values with their weights, as numbers. -/
def AvgStands (f : Fmt) (l : List (Flt × Flt)) (q : List (ℚ × ℚ)) : Prop :=
  List.Forall₂ (fun s p => Stands f s.1 p.1 ∧ Stands f s.2 p.2 ∧ 0 ≤ p.2) l q

theorem avgNear_all {f : Fmt} (hf : f = .double ∨ f = .single) {c : ℚ} (hc : 0 ≤ c) :
    ∀ {l : List (Flt × Flt)} {q : List (ℚ × ℚ)} {m : Nat} {a : Avg Flt} {S A ω : ℚ}, AvgNear f c m a S A ω → |S| ≤ A → 0 ≤ ω → AvgStands f l q →
    (∀ p ∈ q, |f.srnd (p.2 * p.1) - p.2 * p.1| ≤ |p.2 * p.1| / 2 ^ f.prec + c) →
    (A + (q.map fun p => |p.2 * p.1|).sum) * (1 + 1 / 2 ^ f.prec) ^ (m + q.length + 1) + (m + q.length) * c * (1 + 1 / 2 ^ f.prec) ^ (m + q.length) ≤ f.maxVal →
    (ω + (q.map Prod.snd).sum) * (1 + 1 / 2 ^ f.prec) ^ (m + q.length) ≤ f.maxVal →
    AvgNear f c (m + q.length) (avgAll f a l) (S + (q.map fun p => p.2 * p.1).sum) (A + (q.map fun p => |p.2 * p.1|).sum) (ω + (q.map Prod.snd).sum) := by
  intro l
  induction l with
  | nil =>
    intro q m a S A ω h _ _ hl _ _ _
    cases hl
    simpa [avgAll] using h
  | cons s l ih =>
    intro q m a S A ω h hS hω hl hr m1 m2
    obtain _ | ⟨⟨a1, a2, a3⟩, hl'⟩ := hl
    rename_i p q
    simp only [List.map_cons, List.sum_cons, List.length_cons, ← add_assoc] at m1 m2 ⊢
    push_cast at m1 m2
    have hZ : 0 ≤ (q.map fun p => |p.2 * p.1|).sum := List.sum_nonneg (by
      intro x hx; obtain ⟨y, _, rfl⟩ := List.mem_map.1 hx; exact abs_nonneg _)
    have hY : 0 ≤ (q.map Prod.snd).sum := List.sum_nonneg (by
      intro x hx
      obtain ⟨y, hy, rfl⟩ := List.mem_map.1 hx
      have : ∀ (l : List (Flt × Flt)) (q : List (ℚ × ℚ)), AvgStands f l q → ∀ y ∈ q, 0 ≤ y.2 := by
        intro l q h
        induction h with
        | nil => simp
        | cons h1 _ ih => intro y hy; rcases List.mem_cons.1 hy with rfl | hy; exacts [h1.2.2, ih y hy]
      exact this _ _ hl' y hy)
    have hA : 0 ≤ A := (abs_nonneg _).trans hS
    have hu1 : (1 : ℚ) ≤ 1 + 1 / 2 ^ f.prec := by
      have : (0 : ℚ) < 1 / 2 ^ f.prec := by positivity
      linarith
    have g1 : (1 + 1 / 2 ^ f.prec : ℚ) ^ (m + 2) ≤ (1 + 1 / 2 ^ f.prec) ^ (m + q.length + 1 + 1) := pow_le_pow_right₀ hu1 (by omega)
    have g2 : (1 + 1 / 2 ^ f.prec : ℚ) ^ (m + 1) ≤ (1 + 1 / 2 ^ f.prec) ^ (m + q.length + 1) := pow_le_pow_right₀ hu1 (by omega)
    have n1 := avgNear_add hf hc h hS hω a1 a2 a3 (hr p List.mem_cons_self) (by
      refine le_trans (add_le_add (mul_le_mul (by linarith [abs_nonneg (p.2 * p.1)]) g1 (by positivity) (by positivity)) (mul_le_mul ?_ g2 (by positivity) ?_)) m1
      · apply mul_le_mul_of_nonneg_right _ hc
        have : (0 : ℚ) ≤ q.length := by positivity
        linarith
      · positivity) (by
      refine le_trans (mul_le_mul (by linarith) g2 (by positivity) (by positivity)) m2)
    have := ih n1 ((abs_add_le _ _).trans (by linarith)) (by positivity) hl' (fun p hp => hr p (List.mem_cons_of_mem _ hp))
      (by
        rw [show m + 1 + q.length = m + q.length + 1 by omega]
        push_cast
        rw [show (m : ℚ) + 1 + q.length = m + (q.length + 1) by ring]
        exact m1)
      (by rw [show m + 1 + q.length = m + q.length + 1 by omega]; exact m2)
    rw [show m + 1 + q.length = m + q.length + 1 by omega] at this
    exact this

/-- The quotient of two sums that are nearly right. -/
theorem quotient_close {s w S A ω u n c : ℚ} (hu0 : 0 < u) (hn : 1 ≤ n) (hnu : 16 * (n * u) ≤ 1) (hc : 0 ≤ c) (hS : |S| ≤ A) (hω : 0 < ω)
    (e1 : |s - S| ≤ 8 / 7 * ((n + 1) * u) * A + 8 / 7 * (n * c)) (e2 : |w - ω| ≤ 8 / 7 * (n * u) * ω) :
    0 < w ∧ |s / w| ≤ 16 / 13 * ((A + n * c) / ω) ∧ |s / w - S / ω| ≤ 16 / 13 * (((2 * n + 1) * u * A + n * c) / ω) := by
  have hA : 0 ≤ A := (abs_nonneg _).trans hS
  have hw : 13 / 14 * ω ≤ w := by
    have h1 := mul_le_mul_of_nonneg_right hnu hω.le
    have := (abs_le.1 e2).1
    linarith
  have hw0 : 0 < w := lt_of_lt_of_le (by positivity) hw
  have div : ∀ {X Y : ℚ}, 0 ≤ Y → X ≤ 8 / 7 * Y → X / w ≤ 16 / 13 * (Y / ω) := by
    intro X Y hY h
    calc X / w ≤ 8 / 7 * Y / w := div_le_div_of_nonneg_right h hw0.le
      _ ≤ 8 / 7 * Y / (13 / 14 * ω) := div_le_div_of_nonneg_left (by positivity) (by positivity) hw
      _ = 16 / 13 * (Y / ω) := by field_simp; ring
  have hu2 : (n + 1) * u ≤ 1 / 8 := by
    have : u ≤ n * u := le_mul_of_one_le_left hu0.le hn
    linarith
  refine ⟨hw0, ?_, ?_⟩
  · rw [abs_div, abs_of_pos hw0]
    refine div (by positivity) ?_
    have h1 := abs_sub_le s S 0
    rw [sub_zero, sub_zero] at h1
    have h2 := mul_le_mul_of_nonneg_right hu2 hA
    linarith
  · have e : s / w - S / ω = ((s - S) + S / ω * (ω - w)) / w := by field_simp; ring
    rw [e, abs_div, abs_of_pos hw0]
    refine div (by positivity) ?_
    have h1 : |S / ω * (ω - w)| ≤ A * (8 / 7 * (n * u)) := by
      rw [abs_mul, abs_div, abs_of_pos hω, abs_sub_comm]
      calc |S| / ω * |w - ω| ≤ A / ω * (8 / 7 * (n * u) * ω) :=
            mul_le_mul (div_le_div_of_nonneg_right hS hω.le) e2 (abs_nonneg _) (by positivity)
        _ = A * (8 / 7 * (n * u)) := by field_simp
    have h2 := abs_add_le (s - S) (S / ω * (ω - w))
    linarith

/-- The running average of up to a sixteenth of 2^24 or 2^53 values is their weighted mean, to three units for each value of the mean magnitude,
apart from underflow. `c` bounds what is lost where the product of a value and its weight underflows. -/
theorem average_close (f : Fmt) (hf : f = .double ∨ f = .single) (c : ℚ) (hc : 0 ≤ c) (hc' : c ≤ 2 ^ f.emin / 2) (l : List (Flt × Flt)) (q : List (ℚ × ℚ)) (h : AvgStands f l q)
    (hr : ∀ p ∈ q, |f.srnd (p.2 * p.1) - p.2 * p.1| ≤ |p.2 * p.1| / 2 ^ f.prec + c)
    (hn : 16 * (l.length : ℚ) ≤ 2 ^ f.prec) (hω : 0 < (q.map Prod.snd).sum) (hA : 2 * (q.map fun p => |p.2 * p.1|).sum ≤ f.maxVal)
    (hω' : 2 * (q.map Prod.snd).sum ≤ f.maxVal) (hm : 4 * ((q.map fun p => |p.2 * p.1|).sum / (q.map Prod.snd).sum) ≤ f.maxVal) :
    ∃ r, Stands f (avgGet f (avgAll f avgNew l)) r ∧
      |r - (q.map fun p => p.2 * p.1).sum / (q.map Prod.snd).sum| ≤
        3 * (l.length + 1) / 2 ^ f.prec * ((q.map fun p => |p.2 * p.1|).sum / (q.map Prod.snd).sum) + 2 * l.length * c / (q.map Prod.snd).sum + 2 ^ f.emin / 2 := by
  have hp := prec_pos hf
  obtain ⟨k1, k2, k3, k4⟩ := fmt_consts hf
  have kp : (2 : ℚ) ^ f.prec ≤ 2 ^ 100 := by
    rcases hf with rfl | rfl <;> exact pow_le_pow_right₀ (by norm_num) (by decide)
  have hlen : l.length = q.length := h.length_eq
  have hS : |(q.map fun p => p.2 * p.1).sum| ≤ (q.map fun p => |p.2 * p.1|).sum := by
    have := abs_sum_le (q.map fun p => p.2 * p.1)
    rwa [List.map_map] at this
  have hn1 : (1 : ℚ) ≤ q.length := by
    cases q with
    | nil => simp at hω
    | cons p q => push_cast [List.length_cons]; linarith [(by positivity : (0 : ℚ) ≤ q.length)]
  have hωe : 2 ^ f.emin ≤ (q.map Prod.snd).sum := by
    have : ∃ n : Int, (q.map Prod.snd).sum = n * 2 ^ f.emin := by
      clear hr hn hω hA hω' hm hlen hS hn1
      induction h with
      | nil => exact ⟨0, by simp⟩
      | cons h1 _ ih =>
        rw [List.map_cons, List.sum_cons]
        exact multiple_add (binary_mul h1.2.1.binary) ih
    obtain ⟨n, hn⟩ := this
    rw [hn] at hω ⊢
    have h1 : 0 < (n : ℚ) := (mul_pos_iff_of_pos_right k2).1 hω
    have h2 : (1 : ℚ) ≤ n := by exact_mod_cast (show 0 < n by exact_mod_cast h1)
    exact le_mul_of_one_le_left k2.le h2
  rw [hlen] at hn ⊢
  generalize hSd : (q.map fun p => p.2 * p.1).sum = S at *
  generalize hAd : (q.map fun p => |p.2 * p.1|).sum = A at *
  generalize hωd : (q.map Prod.snd).sum = ω at *
  have hA0 : 0 ≤ A := (abs_nonneg _).trans hS
  obtain ⟨u, hu⟩ : ∃ u : ℚ, u = 1 / 2 ^ f.prec := ⟨_, rfl⟩
  have hu0 : 0 < u := by rw [hu]; positivity
  have hu1 : u * 2 ^ f.prec = 1 := by rw [hu]; field_simp
  have hus : u ≤ 1 / 2 ^ 24 := by rw [hu]; exact one_div_le_one_div_of_le (by norm_num) k1
  have hnu : 16 * (q.length * u) ≤ 1 := by
    have := mul_le_mul_of_nonneg_right hn hu0.le
    linarith
  have hunu : u ≤ q.length * u := le_mul_of_one_le_left hu0.le hn1
  have P1 := one_add_pow_le hu0.le (q.length + 1) (by push_cast; linarith)
  have P0 := one_add_pow_le hu0.le q.length (by linarith)
  push_cast at P1
  have hnc : q.length * c ≤ 1 / 32 := by
    have h1 : q.length * c ≤ (2 ^ f.prec / 16) * (2 ^ f.emin / 2) := mul_le_mul (by linarith) hc' hc (by positivity)
    have h2 : (2 : ℚ) ^ f.prec * 2 ^ f.emin ≤ 2 ^ 100 * (1 / 2 ^ 100) := mul_le_mul kp k3 k2.le (by positivity)
    rw [mul_one_div_cancel (by positivity)] at h2
    linarith
  have hnc0 : 0 ≤ (q.length : ℚ) * c := by positivity
  have Q1 : (1 + u) ^ (q.length + 1) ≤ 8 / 7 := by linarith
  have Q0 : (1 + u) ^ q.length ≤ 8 / 7 := by linarith
  have start : AvgNear f c 0 avgNew 0 0 0 :=
    ⟨0, 0, zero_stands f hf false, zero_stands f hf false, by simp, by simp⟩
  have big : (1 : ℚ) ≤ f.maxVal / 32 := by linarith [(by norm_num : (32 : ℚ) ≤ 2 ^ 100)]
  have near := avgNear_all hf hc start (by simp) le_rfl h hr
    (by
      rw [← hu, zero_add, zero_add, hAd, Nat.cast_zero, zero_add]
      have h1 := mul_le_mul_of_nonneg_left Q1 hA0
      have h2 := mul_le_mul_of_nonneg_left Q0 hnc0
      linarith)
    (by
      rw [← hu, zero_add, zero_add, hωd]
      have h1 := mul_le_mul_of_nonneg_left Q0 hω.le
      linarith)
  obtain ⟨s, w, hs, hw, e1, e2⟩ := near
  rw [hSd, hAd, zero_add, zero_add, zero_add, ← hu] at e1
  rw [hωd, zero_add, zero_add, ← hu] at e2
  have e1' : |s - S| ≤ 8 / 7 * ((q.length + 1) * u) * A + 8 / 7 * (q.length * c) := by
    have h1 := mul_le_mul_of_nonneg_right (show (1 + u) ^ (q.length + 1) - 1 ≤ 8 / 7 * ((q.length + 1) * u) by linarith) hA0
    have h2 := mul_le_mul_of_nonneg_left Q0 hnc0
    linarith
  have e2' : |w - ω| ≤ 8 / 7 * (q.length * u) * ω := by
    have h1 := mul_le_mul_of_nonneg_right (show (1 + u) ^ q.length - 1 ≤ 8 / 7 * (q.length * u) by linarith) hω.le
    linarith
  obtain ⟨w0, c1, c2⟩ := quotient_close hu0 hn1 hnu hc hS hω e1' e2'
  have hncω : q.length * c / ω ≤ 2 ^ f.prec / 32 := by
    rw [div_le_iff₀ hω]
    calc q.length * c ≤ (2 ^ f.prec / 16) * (2 ^ f.emin / 2) := mul_le_mul (by linarith) hc' hc (by positivity)
      _ = 2 ^ f.prec / 32 * 2 ^ f.emin := by ring
      _ ≤ 2 ^ f.prec / 32 * ω := mul_le_mul_of_nonneg_left hωe (by positivity)
  rw [add_div] at c1
  rw [add_div, mul_div_assoc] at c2
  have hX : 0 ≤ A / ω := by positivity
  have hY : 0 ≤ q.length * c / ω := by positivity
  have D := div_stands hf hs hw w0.ne' (by linarith)
  have eD := srnd_err (f := f) (s / w)
  rw [div_eq_mul_one_div |s / w|, ← hu] at eD
  refine ⟨f.srnd (s / w), ?_, ?_⟩
  · unfold avgGet
    rw [if_pos ((lt_stands (zero_stands f hf false) hw).2 w0)]
    exact D
  · have t := abs_sub_le (f.srnd (s / w)) (s / w) (S / ω)
    have h1 := mul_le_mul_of_nonneg_right c1 hu0.le
    have h2 : 3 * ((q.length : ℚ) + 1) / 2 ^ f.prec * (A / ω) = 3 * ((q.length * u) * (A / ω)) + 3 * (u * (A / ω)) := by rw [hu]; ring
    have h3 : 2 * (q.length : ℚ) * c / ω = 2 * (q.length * c / ω) := by ring
    rw [h2, h3]
    have h4 : 0 ≤ (q.length * u) * (A / ω) := by positivity
    have h5 : 0 ≤ u * (A / ω) := by positivity
    have h6 := mul_le_mul_of_nonneg_left hus hY
    linarith

/-- C125. After any sequence of values with non-negative weights, not more than a sixteenth of 2^24 or 2^53 of them, the running average is their weighted
mean to three units for each value of the weighted mean of the magnitudes, apart from underflow of the products. -/
theorem C125_weighted (f : Fmt) (hf : f = .double ∨ f = .single) (l : List (Flt × Flt)) (q : List (ℚ × ℚ)) (h : AvgStands f l q)
    (hn : 16 * (l.length : ℚ) ≤ 2 ^ f.prec) (hω : 0 < (q.map Prod.snd).sum) (hA : 2 * (q.map fun p => |p.2 * p.1|).sum ≤ f.maxVal)
    (hω' : 2 * (q.map Prod.snd).sum ≤ f.maxVal) (hm : 4 * ((q.map fun p => |p.2 * p.1|).sum / (q.map Prod.snd).sum) ≤ f.maxVal) :
    ∃ r, Stands f (avgGet f (avgAll f avgNew l)) r ∧
      |r - (q.map fun p => p.2 * p.1).sum / (q.map Prod.snd).sum| ≤
        3 * (l.length + 1) / 2 ^ f.prec * ((q.map fun p => |p.2 * p.1|).sum / (q.map Prod.snd).sum) + l.length * 2 ^ f.emin / (q.map Prod.snd).sum +
          2 ^ f.emin / 2 := by
  obtain ⟨r, h1, h2⟩ := average_close f hf (2 ^ f.emin / 2) (by positivity) le_rfl l q h (fun p _ => srnd_err _) hn hω hA hω' hm
  refine ⟨r, h1, ?_⟩
  rwa [show 2 * (l.length : ℚ) * (2 ^ f.emin / 2) = l.length * 2 ^ f.emin by ring] at h2

/-- C125. Without weights there is no underflow: the running average is the mean, to three units for each value of the mean magnitude. -/
theorem C125_mean (f : Fmt) (hf : f = .double ∨ f = .single) (v : List Flt) (x : List ℚ) (h : List.Forall₂ (Stands f) v x) (h0 : v ≠ [])
    (hn : 16 * (v.length : ℚ) ≤ 2 ^ f.prec) (hA : 4 * (x.map abs).sum ≤ f.maxVal) :
    ∃ r, Stands f (avgGet f (avgAll f avgNew (v.map fun y => (y, .fin false 1)))) r ∧
      |r - x.sum / x.length| ≤ 3 * (v.length + 1) / 2 ^ f.prec * ((x.map abs).sum / x.length) + 2 ^ f.emin / 2 := by
  have hlen : v.length = x.length := h.length_eq
  have e1 : ((x.map fun y => (y, (1 : ℚ))).map Prod.snd).sum = x.length := by
    rw [List.map_map, show (Prod.snd ∘ fun y : ℚ => (y, (1 : ℚ))) = Function.const ℚ 1 from rfl, List.map_const, List.sum_replicate, nsmul_eq_mul, mul_one]
  have e2 : ((x.map fun y => (y, (1 : ℚ))).map fun p => |p.2 * p.1|).sum = (x.map abs).sum := by
    rw [List.map_map]; congr 1; apply List.map_congr_left; intro y _; simp
  have e3 : ((x.map fun y => (y, (1 : ℚ))).map fun p => p.2 * p.1).sum = x.sum := by
    rw [List.map_map]; congr 1; conv_rhs => rw [← List.map_id x]
    apply List.map_congr_left; intro y _; simp
  have hx1 : (1 : ℚ) ≤ x.length := by
    have : 0 < v.length := List.length_pos_iff.2 h0
    rw [hlen] at this
    exact_mod_cast this
  have hT : 0 ≤ (x.map abs).sum := List.sum_nonneg (by intro y hy; obtain ⟨z, _, rfl⟩ := List.mem_map.1 hy; exact abs_nonneg _)
  have hd : (x.map abs).sum / x.length ≤ (x.map abs).sum := div_le_self hT hx1
  have hst : AvgStands f (v.map fun y => (y, .fin false 1)) (x.map fun y => (y, (1 : ℚ))) := by
    unfold AvgStands
    rw [List.forall₂_map_left_iff, List.forall₂_map_right_iff]
    exact h.imp fun a b hab => ⟨hab, one_stands hf, by norm_num⟩
  obtain ⟨k1, k2, k3, k4⟩ := fmt_consts hf
  have kp : (2 : ℚ) ^ f.prec ≤ 2 ^ 100 := by
    rcases hf with rfl | rfl <;> exact pow_le_pow_right₀ (by norm_num) (by decide)
  obtain ⟨r, h1, h2⟩ := average_close f hf 0 le_rfl (by positivity) _ _ hst (by
      intro p hp
      obtain ⟨y, hy, rfl⟩ := List.mem_map.1 hp
      simp only [one_mul, add_zero]
      have hyb : IsBinary f.prec f.emin y := by
        clear * - h hy
        induction h with
        | nil => simp at hy
        | cons h1 _ ih =>
          rcases List.mem_cons.1 hy with rfl | hy
          · exact h1.binary
          · exact ih hy
      rw [Fmt.srnd_self (prec_pos hf) hyb, sub_self, abs_zero]
      positivity) (by rw [List.length_map]; exact hn) (by rw [e1]; linarith) (by rw [e2]; linarith) (by rw [e1, ← hlen]; linarith)
    (by rw [e1, e2]; linarith)
  refine ⟨r, h1, ?_⟩
  rw [e1, e2, e3, List.length_map, mul_zero, zero_div, add_zero] at h2
  exact h2

theorem stands_eq {f : Fmt} {x : Flt} {q : ℚ} (h : Stands f x q) (hq : 0 < q) : x = .fin false q := by
  have h1 := h.1
  obtain ⟨s, m, rfl, rfl⟩ := h.fin
  cases s with
  | false => rfl
  | true =>
    exfalso
    have : 0 ≤ m := h1.1
    simp only [Flt.val] at hq
    norm_num at hq
    linarith

theorem stands_zero_iff {f : Fmt} {x : Flt} {q : ℚ} (h : Stands f x q) : x.eq (.fin false 0) = true ↔ q = 0 := by
  obtain ⟨s, m, rfl, rfl⟩ := h.fin
  cases s <;> simp [Flt.eq, Flt.val]

/-- C125. An average is empty exactly if all weights were zero, however small or large they are; its value is zero then. -/
theorem C125_empty (f : Fmt) (hf : f = .double ∨ f = .single) (l : List (Flt × Flt)) (q : List (ℚ × ℚ)) (h : AvgStands f l q) :
    (avgEmpty (avgAll f avgNew l) = true ↔ ∀ p ∈ q, p.2 = 0) ∧ (avgEmpty (avgAll f avgNew l) = true → avgGet f (avgAll f avgNew l) = .fin false 0) := by
  have hp := prec_pos hf
  have gen : ∀ (l : List (Flt × Flt)) (q : List (ℚ × ℚ)), AvgStands f l q → ∀ (a : Avg Flt),
      ((a.totW = .inf false) → (avgAll f a l).totW = .inf false) ∧
      ∀ t, Stands f a.totW t → 0 ≤ t → (((avgAll f a l).totW = .inf false ∧ ∃ p ∈ q, p.2 ≠ 0) ∨
        ∃ t', Stands f (avgAll f a l).totW t' ∧ t ≤ t' ∧ (∀ p ∈ q, p.2 ≤ t') ∧ ((∀ p ∈ q, p.2 = 0) → t' = t)) := by
    intro l q h
    induction h with
    | nil => intro a; exact ⟨fun h => h, fun t ht h0 => Or.inr ⟨t, ht, le_rfl, by simp, by simp⟩⟩
    | @cons s p l q h1 _ ih =>
      intro a
      obtain ⟨a1, a2, a3⟩ := h1
      obtain ⟨j1, j2⟩ := ih (avgAdd f a s.1 s.2)
      refine ⟨fun hi => j1 ?_, ?_⟩
      · obtain ⟨z, m, hz, _⟩ := a2.fin
        show f.add a.totW s.2 = _
        rw [hi, hz]; rfl
      · intro t ht h0
        have hle : t ≤ f.srnd (t + p.2) := Fmt.le_srnd hp ht.binary (by linarith)
        have hle' : p.2 ≤ f.srnd (t + p.2) := Fmt.le_srnd hp a2.binary (by linarith)
        have key : (avgAdd f a s.1 s.2).totW = .inf false ∧ p.2 ≠ 0 ∨ Stands f (avgAdd f a s.1 s.2).totW (f.srnd (t + p.2)) := by
          by_cases hm : |t + p.2| ≤ f.maxVal
          · exact Or.inr (add_stands hf ht a2 hm)
          · have hq : f.maxVal < t + p.2 := by rwa [abs_of_nonneg (by linarith), not_le] at hm
            have hne : p.2 ≠ 0 := by
              intro h
              rw [h, add_zero] at hq
              have := ht.abs_le
              rw [abs_of_nonneg h0] at this
              linarith
            have hmv : 0 < f.maxVal := lt_of_lt_of_le (by norm_num) (fmt_consts hf).2.2.2
            obtain ⟨z, m, hz, hv⟩ := ht.fin
            obtain ⟨z', m', hz', hv'⟩ := a2.fin
            have e : (avgAdd f a s.1 s.2).totW = f.result (z && z') (t + p.2) := by
              show f.add a.totW s.2 = _
              rw [hz, hz', add_fin, hv, hv']
            rw [e]
            unfold Fmt.result
            dsimp only
            rw [if_neg (show ¬t + p.2 = 0 from ne_of_gt (by linarith)), abs_of_nonneg (show 0 ≤ t + p.2 by linarith), decide_eq_false (show ¬t + p.2 < 0 by linarith)]
            by_cases ho : f.maxVal < f.rnd (t + p.2)
            · rw [if_pos ho]; exact Or.inl ⟨rfl, hne⟩
            · rw [if_neg ho]
              right
              rw [← Fmt.srnd_nonneg (by linarith)] at ho ⊢
              exact ⟨⟨by linarith, not_lt.1 ho, (Fmt.srnd_nearest hp _).1⟩, rfl⟩
        rcases key with ⟨k, hne⟩ | k
        · left
          exact ⟨j1 k, p, List.mem_cons_self, hne⟩
        · rcases j2 _ k (by linarith) with ⟨b1, x, hx, b2⟩ | ⟨t', b1, b2, b3, b4⟩
          · exact Or.inl ⟨b1, x, List.mem_cons_of_mem _ hx, b2⟩
          · refine Or.inr ⟨t', b1, by linarith, ?_, ?_⟩
            · intro x hx
              rcases List.mem_cons.1 hx with rfl | hx
              · linarith
              · exact b3 x hx
            · intro hz
              rw [b4 fun x hx => hz x (List.mem_cons_of_mem _ hx), hz p List.mem_cons_self, add_zero, Fmt.srnd_self hp ht.binary]
  rcases (gen l q h avgNew).2 0 (zero_stands f hf false) le_rfl with ⟨h1, p, hp, h2⟩ | ⟨t, h1, h2, h3, h4⟩
  · have : avgEmpty (avgAll f avgNew l) = false := by unfold avgEmpty; rw [h1]; rfl
    rw [this]
    refine ⟨⟨fun h => absurd h (by decide), fun h => absurd (h p hp) h2⟩, fun h => absurd h (by decide)⟩
  · have e : avgEmpty (avgAll f avgNew l) = true ↔ t = 0 := stands_zero_iff h1
    have nn : ∀ p ∈ q, 0 ≤ p.2 := by
      clear * - h
      induction h with
      | nil => simp
      | cons h1 _ ih => intro y hy; rcases List.mem_cons.1 hy with rfl | hy; exacts [h1.2.2, ih y hy]
    refine ⟨⟨fun h p hp => le_antisymm ((h3 p hp).trans (e.1 h).le) (nn p hp), fun h => e.2 (h4 h)⟩, fun h => ?_⟩
    unfold avgGet
    rw [if_neg]
    rw [lt_stands (zero_stands f hf false) h1, e.1 h]
    exact lt_irrefl 0

/-! ## Many values -/

/-- An even number that is next to a number above the largest of full precision. -/
theorem srnd_even {f : Fmt} (hf : f = .double ∨ f = .single) (k : Nat) (h1 : 2 ^ f.prec ≤ 4 * k) (h2 : 4 * k < 2 ^ (f.prec + 2)) :
    f.srnd ((4 * k : Nat) + 7 / 2) = (4 * (k + 1) : Nat) := by
  have hp := prec_pos hf
  have hem : f.emin ≤ 0 := by rcases hf with rfl | rfl <;> decide
  have hb : IsBinary f.prec f.emin ((4 * (k + 1) : Nat) : ℚ) := by
    rcases Nat.lt_or_ge (k + 1) (2 ^ f.prec) with h | h
    · exact ⟨k + 1, 2, by rw [abs_of_nonneg (by omega)]; exact_mod_cast h, by omega, by push_cast; ring⟩
    · have : k + 1 = 2 ^ f.prec := by
        have e : 2 ^ (f.prec + 2) = 4 * 2 ^ f.prec := by rw [pow_add]; ring
        omega
      refine ⟨1, f.prec + 2, ?_, by omega, ?_⟩
      · rw [abs_one]; exact one_lt_pow₀ (by norm_num) (by omega)
      · rw [this, zpow_add₀ (by norm_num), zpow_natCast]; push_cast; ring
  obtain ⟨n1, n2⟩ := Fmt.srnd_nearest (f := f) hp ((4 * k : Nat) + 7 / 2)
  have d := n2 _ hb
  generalize f.srnd ((4 * k : Nat) + 7 / 2) = x at *
  rw [show (((4 * (k + 1) : Nat) : ℚ) - ((4 * k : Nat) + 7 / 2)) = 1 / 2 by push_cast; ring, abs_of_pos (by norm_num : (0 : ℚ) < 1 / 2), abs_le] at d
  push_cast at d ⊢
  have lo : (4 * k : ℚ) + 3 ≤ x := by linarith [d.1]
  have up : x ≤ (4 * k : ℚ) + 4 := by linarith [d.2]
  obtain ⟨m, e, hm, he, rfl⟩ := n1
  have hk : (2 : ℚ) ^ f.prec ≤ 4 * k := by exact_mod_cast h1
  have he1 : 1 ≤ e := by
    by_contra hc
    have h3 : (2 : ℚ) ^ e ≤ 1 := zpow_le_one_of_nonpos₀ (by norm_num) (by omega)
    have h4 : |(m : ℚ)| < 2 ^ f.prec := by exact_mod_cast hm
    have h5 : |(m : ℚ) * 2 ^ e| ≤ |(m : ℚ)| * 1 := by
      rw [abs_mul, abs_of_pos (show (0 : ℚ) < 2 ^ e by positivity)]
      exact mul_le_mul_of_nonneg_left h3 (abs_nonneg _)
    have := le_abs_self ((m : ℚ) * 2 ^ e)
    linarith
  obtain ⟨d', hd'⟩ := Int.le.dest he1
  have hx : (m : ℚ) * 2 ^ e = ((2 * (m * 2 ^ d') : Int) : ℚ) := by
    rw [← hd', zpow_add₀ (by norm_num), zpow_natCast]; push_cast; ring
  rw [hx] at lo up ⊢
  have lo' : 4 * (k : Int) + 3 ≤ 2 * (m * 2 ^ d') := by exact_mod_cast lo
  have up' : 2 * (m * 2 ^ d') ≤ 4 * (k : Int) + 4 := by exact_mod_cast up
  have : 2 * (m * 2 ^ d') = 4 * (k : Int) + 4 := by omega
  rw [this]; push_cast; ring

/-- C125. An average of very many values can lie above all of them: the sum of the weights stops at 2^24 (2^53), the sum of the values goes on. After
that many values 1 and three quarters as many values 3.5, the average is 4. -/
theorem C125_between_refuted (f : Fmt) (hf : f = .double ∨ f = .single) :
    avgGet f (avgAll f avgNew (List.replicate (2 ^ f.prec) (.fin false 1, .fin false 1) ++
      List.replicate (3 * 2 ^ (f.prec - 2)) (.fin false (7 / 2), .fin false 1))) = .fin false 4 := by
  have hp := prec_pos hf
  have kp : (2 : ℚ) ^ f.prec ≤ 2 ^ 53 := by
    rcases hf with rfl | rfl <;> exact pow_le_pow_right₀ (by norm_num) (by decide)
  have k4 := (fmt_consts hf).2.2.2
  have one := one_stands hf
  have hem : f.emin ≤ -1 := by rcases hf with rfl | rfl <;> decide
  have h72 : Stands f (.fin false (7 / 2)) (7 / 2) := by
    refine ⟨⟨by norm_num, by linarith [(by norm_num : (7 / 2 : ℚ) ≤ 2 ^ 100)], 7, -1, ?_, hem, by norm_num⟩, rfl⟩
    rcases hf with rfl | rfl <;> decide
  -- the first phase: whole numbers
  have ph1 : ∀ n ≤ 2 ^ f.prec, avgAll f avgNew (List.replicate n (.fin false 1, .fin false 1)) = ⟨.fin false n, .fin false n⟩ ∧ Stands f (.fin false n) n := by
    intro n
    induction n with
    | zero => intro _; exact ⟨by simp [avgAll, avgNew], by simpa using zero_stands f hf false⟩
    | succ n ih =>
      intro hn
      obtain ⟨i1, i2⟩ := ih (by omega)
      have hn' : ((n + 1 : Nat) : ℚ) ≤ 2 ^ f.prec := by exact_mod_cast hn
      have hb : IsBinary f.prec f.emin ((n : ℚ) + 1) := by
        rcases hn.lt_or_eq with h | h
        · exact ⟨n + 1, 0, by rw [abs_of_nonneg (by omega)]; exact_mod_cast h, by omega, by push_cast; ring⟩
        · refine ⟨1, f.prec, by rw [abs_one]; exact one_lt_pow₀ (by norm_num) (by omega), by omega, ?_⟩
          rw [zpow_natCast]
          have : ((n + 1 : Nat) : ℚ) = 2 ^ f.prec := by exact_mod_cast h
          push_cast at this ⊢
          linarith
      have hpos : (0 : ℚ) < (n : ℚ) + 1 := by positivity
      push_cast at hn'
      have S := add_stands hf i2 one (by rw [abs_of_pos hpos]; linarith [(by norm_num : (2 : ℚ) ^ 53 ≤ 2 ^ 100)])
      rw [Fmt.srnd_self hp hb] at S
      have E := stands_eq S hpos
      have M : f.mul (.fin false 1) (.fin false 1) = .fin false 1 := by rcases hf with rfl | rfl <;> decide +kernel
      rw [List.replicate_succ', avgAll, List.foldl_append]
      rw [avgAll] at i1
      rw [i1]
      push_cast
      refine ⟨?_, by rw [E] at S; exact S⟩
      show avgAdd f _ _ _ = _
      unfold avgAdd
      dsimp only
      rw [M, E]
  obtain ⟨s1, s2⟩ := ph1 _ le_rfl
  -- the second phase: the weights have stopped
  have stuck : f.add (.fin false ((2 ^ f.prec : Nat) : ℚ)) (.fin false 1) = .fin false ((2 ^ f.prec : Nat) : ℚ) := by
    rcases hf with rfl | rfl <;> decide +kernel
  have M : f.mul (.fin false 1) (.fin false (7 / 2)) = .fin false (7 / 2) := by rcases hf with rfl | rfl <;> decide +kernel
  have hpp : 2 ^ f.prec = 4 * 2 ^ (f.prec - 2) := by rcases hf with rfl | rfl <;> decide
  have hp4 : 2 ^ (f.prec + 2) = 16 * 2 ^ (f.prec - 2) := by rcases hf with rfl | rfl <;> decide
  have ph2 : ∀ n ≤ 3 * 2 ^ (f.prec - 2), avgAll f ⟨.fin false ((2 ^ f.prec : Nat) : ℚ), .fin false ((2 ^ f.prec : Nat) : ℚ)⟩
      (List.replicate n (.fin false (7 / 2), .fin false 1)) = ⟨.fin false ((4 * (2 ^ (f.prec - 2) + n) : Nat) : ℚ), .fin false ((2 ^ f.prec : Nat) : ℚ)⟩ ∧
      Stands f (.fin false ((4 * (2 ^ (f.prec - 2) + n) : Nat) : ℚ)) ((4 * (2 ^ (f.prec - 2) + n) : Nat) : ℚ) := by
    intro n
    induction n with
    | zero => intro _; rw [Nat.add_zero, ← hpp]; exact ⟨rfl, s2⟩
    | succ n ih =>
      intro hn
      obtain ⟨i1, i2⟩ := ih (by omega)
      have hle : ((4 * (2 ^ (f.prec - 2) + n) : Nat) : ℚ) ≤ 4 * 2 ^ f.prec := by
        have : 4 * (2 ^ (f.prec - 2) + n) ≤ 4 * 2 ^ f.prec := by omega
        exact_mod_cast this
      have S := add_stands hf i2 h72 (by
        rw [abs_of_nonneg (by positivity)]
        linarith [(by norm_num : 4 * (2 : ℚ) ^ 53 + 7 / 2 ≤ 2 ^ 100)])
      rw [srnd_even hf _ (by omega) (by omega)] at S
      have E := stands_eq S (by positivity)
      rw [List.replicate_succ', avgAll, List.foldl_append]
      rw [avgAll] at i1
      rw [i1]
      refine ⟨?_, by rw [E] at S; exact S⟩
      show avgAdd f _ _ _ = _
      unfold avgAdd
      dsimp only
      rw [M, E, stuck]
      rfl
  have hall : ∀ l l', avgAll f avgNew (l ++ l') = avgAll f (avgAll f avgNew l) l' := fun l l' => by unfold avgAll; rw [List.foldl_append]
  rw [hall, s1, (ph2 _ le_rfl).1]
  rcases hf with rfl | rfl <;> decide +kernel

/-- Values with weights that the theorems apply to. -/
example : AvgStands .double [(.fin false (7 / 2 ^ 1), .fin false (1 / 2 ^ 0)), (.fin true (1 / 2 ^ 0), .fin false (3 / 2 ^ 2))]
      [(7 / 2 ^ 1, 1 / 2 ^ 0), (-(1 / 2 ^ 0), 3 / 2 ^ 2)] ∧
    avgGet .double (avgAll .double avgNew [(.fin false (7 / 2 ^ 1), .fin false (1 / 2 ^ 0)), (.fin true (1 / 2 ^ 0), .fin false (3 / 2 ^ 2))]) =
      .fin false (7077085128725065 / 4503599627370496) := by
  refine ⟨.cons ⟨stands_double false (by norm_num) (by norm_num), stands_double false (by norm_num) (by norm_num), by norm_num⟩
    (.cons ⟨stands_double true (by norm_num) (by norm_num), stands_double false (by norm_num) (by norm_num), by norm_num⟩ .nil), by decide +kernel⟩

/-- A million values of about one, of either sign: the average is right to 2^-28. -/
example (v : List Flt) (x : List ℚ) (h : List.Forall₂ (Stands .double) v x) (hl : v.length = 10 ^ 6) (hx : ∀ y ∈ x, |y| ≤ 1) :
    ∃ r, Stands .double (avgGet .double (avgAll .double avgNew (v.map fun y => (y, .fin false 1)))) r ∧ |r - x.sum / 10 ^ 6| ≤ 1 / 2 ^ 28 := by
  have hlx : x.length = 10 ^ 6 := by rw [← hl]; exact h.length_eq.symm
  have hs : (x.map abs).sum ≤ x.length := by
    clear h hl hlx
    induction x with
    | nil => simp
    | cons y x ih =>
      rw [List.map_cons, List.sum_cons, List.length_cons]
      push_cast
      linarith [hx y List.mem_cons_self, ih fun z hz => hx z (List.mem_cons_of_mem _ hz)]
  rw [hlx] at hs
  push_cast at hs
  obtain ⟨r, h1, h2⟩ := C125_mean .double (Or.inl rfl) v x h (by rintro rfl; simp at hl) (by rw [hl]; norm_num [Fmt.double])
    (by linarith [(fmt_consts (f := .double) (Or.inl rfl)).2.2.2, (by norm_num : (4 : ℚ) * 10 ^ 6 ≤ 2 ^ 100)])
  refine ⟨r, h1, ?_⟩
  rw [hl, hlx] at h2
  push_cast at h2
  have h3 : (x.map abs).sum / 10 ^ 6 ≤ 1 := by rw [div_le_one (by norm_num)]; exact hs
  have h4 := mul_le_mul_of_nonneg_left h3 (show (0 : ℚ) ≤ 3 * (10 ^ 6 + 1) / 2 ^ Fmt.double.prec by positivity)
  have h5 : (3 * (10 ^ 6 + 1) / 2 ^ Fmt.double.prec * 1 : ℚ) ≤ 1 / 2 ^ 29 := by norm_num [Fmt.double]
  have h6 := (fmt_consts (f := .double) (Or.inl rfl)).2.2.1
  linarith [(by norm_num : (1 : ℚ) / 2 ^ 100 / 2 + 1 / 2 ^ 29 ≤ 1 / 2 ^ 28)]

end Flut
