import Verif.Proofs.FloatVec
import Verif.Model.FloatSpline
import Verif.Spec.FloatSpline
import Mathlib.Tactic.Linarith
import Mathlib.Tactic.Ring

/-! # Bounds for long computations in floating-point arithmetic -/

namespace Flut

open Spec FloatMath

/-- `y` was computed for the number `q`, of magnitude at most `K * M`; its error is at most `c` half units of the last place of `M`. -/
structure Near (f : Fmt) (M K c d : ℚ) (y : Flt) (q : ℚ) : Prop where
  size : |q| ≤ K * M
  err : ∃ r, Stands f y r ∧ |r - q| ≤ c * (M / 2 ^ f.prec) + d * 2 ^ f.emin

/-- Small whole numbers and one half. -/
theorem small_stands {f : Fmt} (hf : f = .double ∨ f = .single) (k : Nat) (hk : k < 2 ^ 24) : Stands f (.fin false k) k := by
  have hp : k < 2 ^ f.prec := lt_of_lt_of_le hk (by rcases hf with rfl | rfl <;> decide)
  have hb : IsBinary f.prec f.emin (k : ℚ) := ⟨k, 0, by rw [abs_of_nonneg (by positivity)]; exact_mod_cast hp,
    by rcases hf with rfl | rfl <;> decide, by simp⟩
  refine ⟨⟨by positivity, ?_, hb⟩, rfl⟩
  have := (fmt_consts hf).2.2.2
  have h2 : (k : ℚ) ≤ 2 ^ 24 := by exact_mod_cast hk.le
  linarith [(by norm_num : (2 : ℚ) ^ 24 ≤ 2 ^ 100)]

theorem half_stands {f : Fmt} (hf : f = .double ∨ f = .single) : Stands f (.fin false (1 / 2)) (1 / 2) := by
  refine ⟨⟨by norm_num, by linarith [(fmt_consts hf).2.2.2, (by norm_num : (1 : ℚ) / 2 ≤ 2 ^ 100)], 1, -1, ?_, ?_, ?_⟩, rfl⟩
  · rcases hf with rfl | rfl <;> norm_num [Fmt.single, Fmt.double]
  · rcases hf with rfl | rfl <;> decide
  · norm_num

section

variable {f : Fmt} (hf : f = .double ∨ f = .single) {M : ℚ}

theorem Near.of {x : Flt} {q : ℚ} (h : Stands f x q) (hM : |q| ≤ M) : Near f M 1 0 0 x q :=
  ⟨by simpa using hM, q, h, by simp⟩

theorem Near.neg {K c d : ℚ} {x : Flt} {q : ℚ} (h : Near f M K c d x q) : Near f M K c d x.neg (-q) := by
  obtain ⟨h1, r, h2, h3⟩ := h
  exact ⟨by rwa [abs_neg], -r, neg_stands h2, by rwa [neg_sub_neg, abs_sub_comm]⟩

/-- What is common to the operations: a result that is off by a little before it is rounded. -/
theorem near_round (hf : f = .double ∨ f = .single) {K c d : ℚ} {y : Flt} {q e : ℚ} (hM : 1000 * M ≤ f.maxVal) (hq : |q| ≤ K * M)
    (hK : K ≤ 100) (hc : c ≤ 1000) (hd : d ≤ 1000) (hd0 : 0 ≤ d) (hM0 : 0 ≤ M) (he : |e - q| ≤ c * (M / 2 ^ f.prec) + d * 2 ^ f.emin)
    (hy : |e| ≤ f.maxVal → Stands f y (f.srnd e)) : Near f M K (c + 1001 / 1000 * K + 1 / 1000) (d + 1) y q := by
  obtain ⟨h24, hn0, hn, hMx⟩ := fmt_consts hf
  have hu0 : (0 : ℚ) < 1 / 2 ^ f.prec := by positivity
  have hu : 1 / (2 : ℚ) ^ f.prec ≤ 1 / 16777216 := by
    apply one_div_le_one_div_of_le (by norm_num)
    norm_num at h24 ⊢; exact h24
  have hs := srnd_err (f := f) e
  rw [div_eq_mul_one_div] at he hs
  have e0 : M / 2 ^ f.prec = M * (1 / 2 ^ f.prec) := div_eq_mul_one_div _ _
  generalize 1 / (2 : ℚ) ^ f.prec = u at *
  generalize hη : (2 : ℚ) ^ f.emin = η at *
  have hMu : M * u ≤ M / 16777216 := by nlinarith
  have hMu0 : 0 ≤ M * u := by positivity
  have hcM : c * (M * u) ≤ 1000 * (M * u) := mul_le_mul_of_nonneg_right hc hMu0
  have hdn : d * η ≤ 1000 * η := mul_le_mul_of_nonneg_right hd hn0.le
  have hKM : K * M ≤ 100 * M := mul_le_mul_of_nonneg_right hK hM0
  have hη1 : η ≤ 1 / 2 ^ 90 := by linarith [(by norm_num : (1 : ℚ) / 2 ^ 100 ≤ 1 / 2 ^ 90)]
  have hae : |e| ≤ |e - q| + |q| := by
    have := abs_add_le (e - q) q
    rwa [sub_add_cancel] at this
  have h1 : |e| ≤ f.maxVal := by
    have : (1 : ℚ) / 2 ^ 90 * 1000 ≤ 1 := by norm_num
    have : (2 : ℚ) ≤ 2 ^ 100 := by norm_num
    linarith
  refine ⟨hq, f.srnd e, hy h1, ?_⟩
  have h3 := abs_sub_le (f.srnd e) e q
  rw [e0]
  have hA : |e| * u ≤ (1000 * (M * u) + d * η + K * M) * u := mul_le_mul_of_nonneg_right (by linarith) hu0.le
  have hB : 1000 * (M * u) * u ≤ 1 / 1000 * (M * u) := by nlinarith
  have hC : d * η * u ≤ 1 / 2 * η := by
    have : η * u ≤ η / 16777216 := by nlinarith
    have h0 : 0 ≤ η * u := by positivity
    calc d * η * u = d * (η * u) := by ring
      _ ≤ 1000 * (η * u) := mul_le_mul_of_nonneg_right hd h0
      _ ≤ _ := by linarith
  have hK0 : 0 ≤ K * M := (abs_nonneg q).trans hq
  have hK1 : 0 ≤ K * M * u := by positivity
  have e1 : (c + 1001 / 1000 * K + 1 / 1000) * (M * u) + (d + 1) * η =
      c * (M * u) + 1001 / 1000 * (K * M * u) + 1 / 1000 * (M * u) + d * η + η := by ring
  have e2 : (1000 * (M * u) + d * η + K * M) * u = 1000 * (M * u) * u + d * η * u + K * M * u := by ring
  rw [hη, e1]
  rw [e2] at hA
  linarith

theorem Near.add (hf : f = .double ∨ f = .single) (hM : 1000 * M ≤ f.maxVal) {K c d K' c' d' : ℚ} {x y : Flt} {p q : ℚ} (hx : Near f M K c d x p)
    (hy : Near f M K' c' d' y q) (hM0 : 0 ≤ M) (hK : K + K' ≤ 100) (hc : c + c' ≤ 1000) (hd : d + d' ≤ 1000) (hd0 : 0 ≤ d + d') :
    Near f M (K + K') (c + c' + 1001 / 1000 * (K + K') + 1 / 1000) (d + d' + 1) (f.add x y) (p + q) := by
  obtain ⟨h1, r, h2, h3⟩ := hx
  obtain ⟨h1', r', h2', h3'⟩ := hy
  refine near_round hf hM ?_ hK hc hd hd0 hM0 (e := r + r') ?_ fun h => add_stands hf h2 h2' h
  · have := abs_add_le p q; linarith
  · have := abs_add_le (r - p) (r' - q)
    rw [show r - p + (r' - q) = r + r' - (p + q) by ring] at this
    linarith

theorem Near.sub (hf : f = .double ∨ f = .single) (hM : 1000 * M ≤ f.maxVal) {K c d K' c' d' : ℚ} {x y : Flt} {p q : ℚ} (hx : Near f M K c d x p)
    (hy : Near f M K' c' d' y q) (hM0 : 0 ≤ M) (hK : K + K' ≤ 100) (hc : c + c' ≤ 1000) (hd : d + d' ≤ 1000) (hd0 : 0 ≤ d + d') :
    Near f M (K + K') (c + c' + 1001 / 1000 * (K + K') + 1 / 1000) (d + d' + 1) (f.sub x y) (p - q) := by
  obtain ⟨h1, r, h2, h3⟩ := hx
  obtain ⟨h1', r', h2', h3'⟩ := hy
  refine near_round hf hM ?_ hK hc hd hd0 hM0 (e := r - r') ?_ fun h => sub_stands hf h2 h2' h
  · have := abs_sub p q; linarith
  · have := abs_sub (r - p) (r' - q)
    rw [show r - p - (r' - q) = r - r' - (p - q) by ring] at this
    linarith

/-- The product with an exact number of magnitude at most `k`. -/
theorem Near.mulL (hf : f = .double ∨ f = .single) (hM : 1000 * M ≤ f.maxVal) {K c d k : ℚ} {x y : Flt} {p q : ℚ} (hx : Stands f x p) (hp : |p| ≤ k)
    (hy : Near f M K c d y q) (hM0 : 0 ≤ M) (hK : k * K ≤ 100) (hc : k * c ≤ 1000) (hd : k * d ≤ 1000) (hd0 : 0 ≤ d) :
    Near f M (k * K) (k * c + 1001 / 1000 * (k * K) + 1 / 1000) (k * d + 1) (f.mul x y) (p * q) := by
  obtain ⟨h1', r', h2', h3'⟩ := hy
  have hk : 0 ≤ k := (abs_nonneg p).trans hp
  refine near_round hf hM ?_ hK hc hd (mul_nonneg hk hd0) hM0 (e := p * r') ?_ fun h => mul_stands hf hx h2' h
  · rw [abs_mul, mul_assoc]
    exact mul_le_mul hp h1' (abs_nonneg _) hk
  · rw [← mul_sub, abs_mul, mul_assoc, mul_assoc, ← mul_add]
    exact mul_le_mul hp h3' (abs_nonneg _) hk

theorem Near.mulR (hf : f = .double ∨ f = .single) (hM : 1000 * M ≤ f.maxVal) {K c d : ℚ} {x y : Flt} {p q : ℚ} (hx : Stands f x p) (hp : |p| ≤ 1)
    (hy : Near f M K c d y q) (hM0 : 0 ≤ M) (hK : K ≤ 100) (hc : c ≤ 1000) (hd : d ≤ 1000) (hd0 : 0 ≤ d) :
    Near f M K (c + 1001 / 1000 * K + 1 / 1000) (d + 1) (f.mul y x) (q * p) := by
  obtain ⟨h1', r', h2', h3'⟩ := hy
  refine near_round hf hM ?_ hK hc hd hd0 hM0 (e := r' * p) ?_ fun h => mul_stands hf h2' hx h
  · rw [abs_mul]
    exact (mul_le_of_le_one_right (abs_nonneg _) hp).trans h1'
  · rw [← sub_mul, abs_mul]
    exact (mul_le_of_le_one_right (abs_nonneg _) hp).trans h3'

theorem Near.mono {K c d K' c' d' : ℚ} {x : Flt} {q : ℚ} (h : Near f M K c d x q) (hM0 : 0 ≤ M) (hK : K ≤ K') (hc : c ≤ c') (hd : d ≤ d') :
    Near f M K' c' d' x q := by
  obtain ⟨h1, r, h2, h3⟩ := h
  have hη := Fmt.pow_pos f.emin
  have hu : 0 ≤ M / 2 ^ f.prec := by positivity
  exact ⟨h1.trans (mul_le_mul_of_nonneg_right hK hM0), r, h2,
    h3.trans (add_le_add (mul_le_mul_of_nonneg_right hc hu) (mul_le_mul_of_nonneg_right hd hη.le))⟩

end

/-- The error at a point of the curve. -/
theorem segment_near {f : Fmt} (hf : f = .double ∨ f = .single) {M : ℚ} (hM : 1000 * M ≤ f.maxVal) {x0 x1 x2 x3 y : Flt} {p0 p1 p2 p3 t : ℚ}
    (h0 : Stands f x0 p0) (h1 : Stands f x1 p1) (h2 : Stands f x2 p2) (h3 : Stands f x3 p3) (b0 : |p0| ≤ M) (b1 : |p1| ≤ M) (b2 : |p2| ≤ M)
    (b3 : |p3| ≤ M) (hy : Stands f y t) (ht : |t| ≤ 1) :
    Near f M 2 3 2 (segment f x0 x1 x2 x3).a (2 * p1) ∧ Near f M 2 3 2 (segment f x0 x1 x2 x3).b (-p0 + p2) ∧
    Near f M 12 42 10 (segment f x0 x1 x2 x3).c (2 * p0 - 5 * p1 + 4 * p2 - p3) ∧
    Near f M 8 26 10 (segment f x0 x1 x2 x3).d (-p0 + 3 * p1 - 3 * p2 + p3) ∧
    Near f M 12 96 30 (segmentAt f (segment f x0 x1 x2 x3) y) (catmullRom p0 p1 p2 p3 t) := by
  have hM0 : 0 ≤ M := (abs_nonneg p0).trans b0
  have n0 := Near.of h0 b0
  have n1 := Near.of h1 b1
  have n2 := Near.of h2 b2
  have n3 := Near.of h3 b3
  have s2 : Stands f (.fin false 2) 2 := small_stands hf 2 (by norm_num)
  have s3 : Stands f (.fin false 3) 3 := small_stands hf 3 (by norm_num)
  have s4 : Stands f (.fin false 4) 4 := small_stands hf 4 (by norm_num)
  have s5 : Stands f (.fin false 5) 5 := small_stands hf 5 (by norm_num)
  have sh : Stands f (.fin false (1 / 2)) (1 / 2) := half_stands hf
  have m2 : ∀ {x p}, Near f M 1 0 0 x p → Near f M 2 3 2 (f.mul (.fin false 2) x) (2 * p) := fun h =>
    (Near.mulL hf hM s2 (k := 2) (by norm_num) h hM0 (by norm_num) (by norm_num) (by norm_num) (by norm_num)).mono hM0 (by norm_num)
      (by norm_num) (by norm_num)
  have m3 : ∀ {x p}, Near f M 1 0 0 x p → Near f M 3 (3004 / 1000) 1 (f.mul (.fin false 3) x) (3 * p) := fun h =>
    (Near.mulL hf hM s3 (k := 3) (by norm_num) h hM0 (by norm_num) (by norm_num) (by norm_num) (by norm_num)).mono hM0 (by norm_num)
      (by norm_num) (by norm_num)
  have m4 : Near f M 4 (4005 / 1000) 1 (f.mul (.fin false 4) x2) (4 * p2) :=
    (Near.mulL hf hM s4 (k := 4) (by norm_num) n2 hM0 (by norm_num) (by norm_num) (by norm_num) (by norm_num)).mono hM0 (by norm_num)
      (by norm_num) (by norm_num)
  have m5 : Near f M 5 (5006 / 1000) 1 (f.mul (.fin false 5) x1) (5 * p1) :=
    (Near.mulL hf hM s5 (k := 5) (by norm_num) n1 hM0 (by norm_num) (by norm_num) (by norm_num) (by norm_num)).mono hM0 (by norm_num)
      (by norm_num) (by norm_num)
  have m2' : Near f M 2 (2003 / 1000) 1 (f.mul (.fin false 2) x0) (2 * p0) :=
    (Near.mulL hf hM s2 (k := 2) (by norm_num) n0 hM0 (by norm_num) (by norm_num) (by norm_num) (by norm_num)).mono hM0 (by norm_num)
      (by norm_num) (by norm_num)
  have na : Near f M 2 (2003 / 1000) 1 (segment f x0 x1 x2 x3).a (2 * p1) :=
    (Near.mulL hf hM s2 (k := 2) (by norm_num) n1 hM0 (by norm_num) (by norm_num) (by norm_num) (by norm_num)).mono hM0 (by norm_num)
      (by norm_num) (by norm_num)
  have nb : Near f M 2 (2003 / 1000) 1 (segment f x0 x1 x2 x3).b (-p0 + p2) :=
    (n0.neg.add hf hM n2 hM0 (by norm_num) (by norm_num) (by norm_num) (by norm_num)).mono hM0 (by norm_num) (by norm_num) (by norm_num)
  have nc1 := m2'.sub hf hM m5 hM0 (by norm_num) (by norm_num) (by norm_num) (by norm_num)
  have nc2 := nc1.add hf hM m4 hM0 (by norm_num) (by norm_num) (by norm_num) (by norm_num)
  have nc : Near f M 12 (41050 / 1000) 6 (segment f x0 x1 x2 x3).c (2 * p0 - 5 * p1 + 4 * p2 - p3) :=
    (nc2.sub hf hM n3 hM0 (by norm_num) (by norm_num) (by norm_num) (by norm_num)).mono hM0 (by norm_num) (by norm_num) (by norm_num)
  have nd1 := n0.neg.add hf hM (m3 n1) hM0 (by norm_num) (by norm_num) (by norm_num) (by norm_num)
  have nd2 := nd1.sub hf hM (m3 n2) hM0 (by norm_num) (by norm_num) (by norm_num) (by norm_num)
  have nd : Near f M 8 (25050 / 1000) 6 (segment f x0 x1 x2 x3).d (-p0 + 3 * p1 - 3 * p2 + p3) :=
    (nd2.add hf hM n3 hM0 (by norm_num) (by norm_num) (by norm_num) (by norm_num)).mono hM0 (by norm_num) (by norm_num) (by norm_num)
  refine ⟨na.mono hM0 (by norm_num) (by norm_num) (by norm_num), nb.mono hM0 (by norm_num) (by norm_num) (by norm_num),
    nc.mono hM0 (by norm_num) (by norm_num) (by norm_num), nd.mono hM0 (by norm_num) (by norm_num) (by norm_num), ?_⟩
  have tb := Near.mulR hf hM hy ht nb hM0 (by norm_num) (by norm_num) (by norm_num) (by norm_num)
  have tc1 := Near.mulR hf hM hy ht nc hM0 (by norm_num) (by norm_num) (by norm_num) (by norm_num)
  have tc := Near.mulR hf hM hy ht tc1 hM0 (by norm_num) (by norm_num) (by norm_num) (by norm_num)
  have td1 := Near.mulR hf hM hy ht nd hM0 (by norm_num) (by norm_num) (by norm_num) (by norm_num)
  have td2 := Near.mulR hf hM hy ht td1 hM0 (by norm_num) (by norm_num) (by norm_num) (by norm_num)
  have td := Near.mulR hf hM hy ht td2 hM0 (by norm_num) (by norm_num) (by norm_num) (by norm_num)
  have u1 := na.add hf hM tb hM0 (by norm_num) (by norm_num) (by norm_num) (by norm_num)
  have u2 := u1.add hf hM tc hM0 (by norm_num) (by norm_num) (by norm_num) (by norm_num)
  have u3 := u2.add hf hM td hM0 (by norm_num) (by norm_num) (by norm_num) (by norm_num)
  have u4 := Near.mulL hf hM sh (k := 1 / 2) (by norm_num) u3 hM0 (by norm_num) (by norm_num) (by norm_num) (by norm_num)
  have e : 1 / 2 * (2 * p1 + (-p0 + p2) * t + (2 * p0 - 5 * p1 + 4 * p2 - p3) * t * t + (-p0 + 3 * p1 - 3 * p2 + p3) * t * t * t) =
      catmullRom p0 p1 p2 p3 t := by unfold catmullRom; ring
  rw [e] at u4
  exact u4.mono hM0 (by norm_num) (by norm_num) (by norm_num)

/-- Exact multiples of `2 ^ e`. -/
structure Grid (f : Fmt) (e : Int) (B : Int) (y : Flt) (n : Int) : Prop where
  stands : Stands f y (n * 2 ^ e)
  size : |n| ≤ B

theorem grid_srnd {f : Fmt} (hf : f = .double ∨ f = .single) {e : Int} (he : f.emin ≤ e) {n : Int} (hn : |n| < 2 ^ f.prec) :
    f.srnd (n * 2 ^ e) = n * 2 ^ e :=
  Fmt.srnd_self (prec_pos hf) ⟨n, e, hn, he, rfl⟩

theorem grid_fits {f : Fmt} {e : Int} {n B : Int} (hn : |n| ≤ B) (hm : (B : ℚ) * 2 ^ e ≤ f.maxVal) : |(n : ℚ) * 2 ^ e| ≤ f.maxVal := by
  rw [abs_mul, abs_of_pos (Fmt.pow_pos e)]
  refine le_trans (mul_le_mul_of_nonneg_right ?_ (Fmt.pow_pos e).le) hm
  exact_mod_cast hn

section

variable {f : Fmt} {e : Int} {L : Int}

theorem Grid.neg {B : Int} {x : Flt} {n : Int} (h : Grid f e B x n) : Grid f e B x.neg (-n) :=
  ⟨by have := neg_stands h.stands; push_cast; rwa [neg_mul], by rw [abs_neg]; exact h.size⟩

theorem Grid.add (hf : f = .double ∨ f = .single) (he : f.emin ≤ e) (hL : L < 2 ^ f.prec) (hm : (L : ℚ) * 2 ^ e ≤ f.maxVal) {B B' : Int} {x y : Flt}
    {n m : Int} (hx : Grid f e B x n) (hy : Grid f e B' y m) (h : B + B' ≤ L) : Grid f e (B + B') (f.add x y) (n + m) := by
  have hs : |n + m| ≤ B + B' := (abs_add_le n m).trans (add_le_add hx.size hy.size)
  refine ⟨?_, hs⟩
  have := add_stands hf hx.stands hy.stands
  rw [← add_mul, ← Int.cast_add, grid_srnd hf he (by omega)] at this
  exact this (grid_fits (hs.trans h) hm)

theorem Grid.sub (hf : f = .double ∨ f = .single) (he : f.emin ≤ e) (hL : L < 2 ^ f.prec) (hm : (L : ℚ) * 2 ^ e ≤ f.maxVal) {B B' : Int} {x y : Flt}
    {n m : Int} (hx : Grid f e B x n) (hy : Grid f e B' y m) (h : B + B' ≤ L) : Grid f e (B + B') (f.sub x y) (n - m) := by
  have hs : |n - m| ≤ B + B' := (abs_sub n m).trans (add_le_add hx.size hy.size)
  refine ⟨?_, hs⟩
  have := sub_stands hf hx.stands hy.stands
  rw [← sub_mul, ← Int.cast_sub, grid_srnd hf he (by omega)] at this
  exact this (grid_fits (hs.trans h) hm)

theorem Grid.mulL (hf : f = .double ∨ f = .single) (he : f.emin ≤ e) (hL : L < 2 ^ f.prec) (hm : (L : ℚ) * 2 ^ e ≤ f.maxVal) {k B : Int} {x y : Flt}
    {m : Int} (hx : Stands f x k) (hk : 0 ≤ k) (hy : Grid f e B y m) (h : k * B ≤ L) : Grid f e (k * B) (f.mul x y) (k * m) := by
  have hs : |k * m| ≤ k * B := by
    rw [abs_mul, abs_of_nonneg hk]; exact mul_le_mul_of_nonneg_left hy.size hk
  refine ⟨?_, hs⟩
  have := mul_stands hf hx hy.stands
  rw [← mul_assoc, ← Int.cast_mul, grid_srnd hf he (by omega)] at this
  exact this (grid_fits (hs.trans h) hm)

/-- The product with one. -/
theorem Grid.one (hf : f = .double ∨ f = .single) {B : Int} {x y : Flt} {m : Int} (hx : Stands f x 1) (hy : Grid f e B y m) :
    Grid f e B (f.mul y x) m := by
  refine ⟨?_, hy.size⟩
  have := mul_stands hf hy.stands hx
  rw [mul_one, Fmt.srnd_self (prec_pos hf) hy.stands.binary] at this
  exact this hy.stands.abs_le

end

/-- Half of a number that was doubled. -/
theorem half_double {f : Fmt} (hf : f = .double ∨ f = .single) {y : Flt} {q : ℚ} (hy : Stands f y (2 * q)) (hq : IsBinary f.prec f.emin q) :
    Stands f (f.mul (.fin false (1 / 2)) y) q := by
  have := mul_stands hf (half_stands hf) hy
  rw [show (1 / 2 : ℚ) * (2 * q) = q by ring, Fmt.srnd_self (prec_pos hf) hq] at this
  refine this ?_
  have := hy.abs_le
  rw [abs_mul, abs_two] at this
  linarith [abs_nonneg q]

/-- The product with zero and the sum with it. -/
theorem mul_zero_stands {f : Fmt} (hf : f = .double ∨ f = .single) {x y : Flt} {q : ℚ} (hx : Stands f x q) (hy : Stands f y 0) :
    Stands f (f.mul x y) 0 := by
  have := mul_stands hf hx hy
  rw [mul_zero, Fmt.srnd_zero] at this
  exact this (by rw [abs_zero]; exact (abs_nonneg _).trans hx.abs_le)

theorem add_zero_stands {f : Fmt} (hf : f = .double ∨ f = .single) {x y : Flt} {q : ℚ} (hx : Stands f x q) (hy : Stands f y 0) :
    Stands f (f.add x y) q := by
  have := add_stands hf hx hy
  rw [add_zero, Fmt.srnd_self (prec_pos hf) hx.binary] at this
  exact this hx.abs_le

/-- At the start of the segment. -/
theorem segment_start {f : Fmt} (hf : f = .double ∨ f = .single) {M : ℚ} (hM : 1000 * M ≤ f.maxVal) {x0 x1 x2 x3 y : Flt} {p0 p1 p2 p3 : ℚ}
    (h0 : Stands f x0 p0) (h1 : Stands f x1 p1) (h2 : Stands f x2 p2) (h3 : Stands f x3 p3) (b0 : |p0| ≤ M) (b1 : |p1| ≤ M) (b2 : |p2| ≤ M)
    (b3 : |p3| ≤ M) (hy : Stands f y 0) : Stands f (segmentAt f (segment f x0 x1 x2 x3) y) p1 := by
  have hM0 : 0 ≤ M := (abs_nonneg p0).trans b0
  obtain ⟨-, ⟨-, rb, hb, -⟩, ⟨-, rc, hc, -⟩, ⟨-, rd, hd, -⟩, -⟩ := segment_near hf hM h0 h1 h2 h3 b0 b1 b2 b3 hy (by norm_num)
  have ha : Stands f (segment f x0 x1 x2 x3).a (2 * p1) := by
    have := mul_stands hf (small_stands hf 2 (by norm_num)) h1
    push_cast at this
    rw [Fmt.srnd_self (prec_pos hf) (binary_double h1.binary)] at this
    refine this ?_
    rw [abs_mul, abs_two]
    linarith
  refine half_double hf ?_ h1.binary
  exact add_zero_stands hf (add_zero_stands hf (add_zero_stands hf ha (mul_zero_stands hf hb hy))
    (mul_zero_stands hf (mul_zero_stands hf hc hy) hy)) (mul_zero_stands hf (mul_zero_stands hf (mul_zero_stands hf hd hy) hy) hy)

/-- At the end of the segment, on a grid. -/
theorem segment_end {f : Fmt} (hf : f = .double ∨ f = .single) {e N : Int} (he : f.emin ≤ e) (hN : 24 * N < 2 ^ f.prec)
    (hm : (24 * N : ℚ) * 2 ^ e ≤ f.maxVal) {x0 x1 x2 x3 y : Flt} {n0 n1 n2 n3 : Int} (h0 : Grid f e N x0 n0) (h1 : Grid f e N x1 n1)
    (h2 : Grid f e N x2 n2) (h3 : Grid f e N x3 n3) (hy : Stands f y 1) :
    Stands f (segmentAt f (segment f x0 x1 x2 x3) y) (n2 * 2 ^ e) := by
  have hN0 : 0 ≤ N := (abs_nonneg n0).trans h0.size
  have hm' : ((24 * N : Int) : ℚ) * 2 ^ e ≤ f.maxVal := by push_cast; exact hm
  have s2 : Stands f (.fin false 2) ((2 : Int) : ℚ) := by have := small_stands hf 2 (by norm_num); exact_mod_cast this
  have s3 : Stands f (.fin false 3) ((3 : Int) : ℚ) := by have := small_stands hf 3 (by norm_num); exact_mod_cast this
  have s4 : Stands f (.fin false 4) ((4 : Int) : ℚ) := by have := small_stands hf 4 (by norm_num); exact_mod_cast this
  have s5 : Stands f (.fin false 5) ((5 : Int) : ℚ) := by have := small_stands hf 5 (by norm_num); exact_mod_cast this
  have ga : Grid f e _ (segment f x0 x1 x2 x3).a _ := Grid.mulL hf he hN hm' s2 (by omega) h1 (by omega)
  have gb : Grid f e _ (segment f x0 x1 x2 x3).b _ := h0.neg.add hf he hN hm' h2 (by omega)
  have gc : Grid f e _ (segment f x0 x1 x2 x3).c _ :=
    (((Grid.mulL hf he hN hm' s2 (by omega) h0 (by omega)).sub hf he hN hm' (Grid.mulL hf he hN hm' s5 (by omega) h1 (by omega)) (by omega)).add
      hf he hN hm' (Grid.mulL hf he hN hm' s4 (by omega) h2 (by omega)) (by omega)).sub hf he hN hm' h3 (by omega)
  have gd : Grid f e _ (segment f x0 x1 x2 x3).d _ :=
    ((h0.neg.add hf he hN hm' (Grid.mulL hf he hN hm' s3 (by omega) h1 (by omega)) (by omega)).sub hf he hN hm'
      (Grid.mulL hf he hN hm' s3 (by omega) h2 (by omega)) (by omega)).add hf he hN hm' h3 (by omega)
  have g := ((ga.add hf he hN hm' (gb.one hf hy) (by omega)).add hf he hN hm' ((gc.one hf hy).one hf hy) (by omega)).add hf he hN hm'
    (((gd.one hf hy).one hf hy).one hf hy) (by omega)
  refine half_double hf ?_ h2.stands.binary
  have := g.stands
  convert this using 1
  push_cast; ring

end Flut
