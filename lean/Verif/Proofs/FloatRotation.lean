import Verif.Spec.FloatRotation
import Verif.Props.FloatProducts

/-! # Products and rotations of quaternions in floating-point arithmetic -/

namespace Flut

open Spec FloatMath Quaternion

/-- A quaternion of its components. -/
def quatOf (w x y z : ℝ) : ℍ[ℝ] := ⟨w, x, y, z⟩

@[simp] theorem quatOf_re (w x y z : ℝ) : (quatOf w x y z).re = w := rfl
@[simp] theorem quatOf_imI (w x y z : ℝ) : (quatOf w x y z).imI = x := rfl
@[simp] theorem quatOf_imJ (w x y z : ℝ) : (quatOf w x y z).imJ = y := rfl
@[simp] theorem quatOf_imK (w x y z : ℝ) : (quatOf w x y z).imK = z := rfl

theorem norm_sq4 (Q : ℍ[ℝ]) : ‖Q‖ ^ 2 = Q.re ^ 2 + Q.imI ^ 2 + Q.imJ ^ 2 + Q.imK ^ 2 := by
  rw [pow_two, ← normSq_eq_norm_mul_self, normSq_def']

theorem norm_le4 {Q : ℍ[ℝ]} {E : ℝ} (hw : |Q.re| ≤ E) (hx : |Q.imI| ≤ E) (hy : |Q.imJ| ≤ E) (hz : |Q.imK| ≤ E) : ‖Q‖ ≤ 2 * E := by
  have h0 : 0 ≤ E := (abs_nonneg _).trans hw
  refine le_of_sq_le_sq ?_ (by linarith)
  rw [norm_sq4]
  have := sq_le_sq' (abs_le.1 hw).1 (abs_le.1 hw).2
  have := sq_le_sq' (abs_le.1 hx).1 (abs_le.1 hx).2
  have := sq_le_sq' (abs_le.1 hy).1 (abs_le.1 hy).2
  have := sq_le_sq' (abs_le.1 hz).1 (abs_le.1 hz).2
  nlinarith

/-- Cauchy and Schwarz for the magnitudes. -/
theorem cauchy4 {n m : ℝ} (hn : 0 ≤ n) (hm : 0 ≤ m) (a b c d a' b' c' d' : ℝ) (h : n ^ 2 = a ^ 2 + b ^ 2 + c ^ 2 + d ^ 2)
    (h' : m ^ 2 = a' ^ 2 + b' ^ 2 + c' ^ 2 + d' ^ 2) : |a * a'| + |b * b'| + |c * c'| + |d * d'| ≤ n * m := by
  refine le_of_sq_le_sq ?_ (by positivity)
  rw [mul_pow, h, h']
  simp only [abs_mul]
  rw [← sq_abs a, ← sq_abs b, ← sq_abs c, ← sq_abs d, ← sq_abs a', ← sq_abs b', ← sq_abs c', ← sq_abs d']
  generalize |a| = a, |b| = b, |c| = c, |d| = d, |a'| = a', |b'| = b', |c'| = c', |d'| = d'
  nlinarith [sq_nonneg (a * b' - b * a'), sq_nonneg (a * c' - c * a'), sq_nonneg (a * d' - d * a'), sq_nonneg (b * c' - c * b'),
    sq_nonneg (b * d' - d * b'), sq_nonneg (c * d' - d * c')]

/-- Four terms. -/
theorem sum4 {f : Fmt} (hf : f = .double ∨ f = .single) {y1 y2 y3 y4 : Flt} {p1 p2 p3 p4 t1 t2 t3 t4 : ℚ} (h1 : Term f y1 p1 t1)
    (h2 : Term f y2 p2 t2) (h3 : Term f y3 p3 t3) (h4 : Term f y4 p4 t4) (h : |t1| + |t2| + |t3| + |t4| ≤ f.maxVal / 2) :
    ∃ r, Stands f (f.add (f.add (f.add y1 y2) y3) y4) r ∧
      |r - (t1 + t2 + t3 + t4)| ≤ 4003 / 1000 * ((|t1| + |t2| + |t3| + |t4|) / 2 ^ f.prec) + 4 * 2 ^ f.emin := by
  have n1 := abs_nonneg t1
  have n2 := abs_nonneg t2
  have n3 := abs_nonneg t3
  have n4 := abs_nonneg t4
  have A := ((h1.acc.step hf h2 (by linarith) (by norm_num) (by norm_num) (by norm_num) (by norm_num)).step hf h3 (by linarith)
    (by norm_num) (by norm_num) (by norm_num) (by norm_num)).step hf h4 h (by norm_num) (by norm_num) (by norm_num) (by norm_num)
  refine ⟨_, A.stands, A.err.trans (le_of_eq ?_)⟩
  ring

/-- One component of a product: the terms are products of a component of each quaternion. -/
theorem component4 {f : Fmt} (hf : f = .double ∨ f = .single) {B : ℝ} (hB : B ≤ f.maxVal / 2) {y1 y2 y3 y4 : Flt}
    {p1 p2 p3 p4 t1 t2 t3 t4 : ℚ} (hT : |(t1 : ℝ)| + |(t2 : ℝ)| + |(t3 : ℝ)| + |(t4 : ℝ)| ≤ B)
    (k1 : |t1| ≤ f.maxVal / 2 → Term f y1 p1 t1)
    (k2 : |t2| ≤ f.maxVal / 2 → Term f y2 p2 t2) (k3 : |t3| ≤ f.maxVal / 2 → Term f y3 p3 t3)
    (k4 : |t4| ≤ f.maxVal / 2 → Term f y4 p4 t4) :
    ∃ r : ℚ, Stands f (f.add (f.add (f.add y1 y2) y3) y4) r ∧
      |(r : ℝ) - (t1 + t2 + t3 + t4)| ≤ 4003 / 1000 * B / 2 ^ f.prec + 4 * 2 ^ f.emin := by
  have n1 := abs_nonneg t1
  have n2 := abs_nonneg t2
  have n3 := abs_nonneg t3
  have n4 := abs_nonneg t4
  have h : |t1| + |t2| + |t3| + |t4| ≤ f.maxVal / 2 := by
    have : ((|t1| + |t2| + |t3| + |t4| : ℚ) : ℝ) ≤ ((f.maxVal / 2 : ℚ) : ℝ) := by push_cast; linarith
    exact_mod_cast this
  obtain ⟨r, hr, e⟩ := sum4 hf (k1 (by linarith)) (k2 (by linarith)) (k3 (by linarith)) (k4 (by linarith)) h
  refine ⟨r, hr, ?_⟩
  have e' : ((|r - (t1 + t2 + t3 + t4)| : ℚ) : ℝ) ≤ ((4003 / 1000 * ((|t1| + |t2| + |t3| + |t4|) / 2 ^ f.prec) + 4 * 2 ^ f.emin : ℚ) : ℝ) :=
    by exact_mod_cast e
  push_cast at e'
  refine e'.trans ?_
  have : (|(t1 : ℝ)| + |(t2 : ℝ)| + |(t3 : ℝ)| + |(t4 : ℝ)|) / 2 ^ f.prec ≤ B / 2 ^ f.prec := by gcongr
  rw [mul_div_assoc]
  linarith

/-- The product of two quaternions. -/
theorem quatMul_close {f : Fmt} (hf : f = .double ∨ f = .single) {q1 q2 : Quat Flt} {Q1 Q2 : ℍ[ℝ]} (h1 : StandsQuat f q1 Q1)
    (h2 : StandsQuat f q2 Q2) (h : ‖Q1‖ * ‖Q2‖ ≤ f.maxVal / 2) :
    ∃ P, StandsQuat f (quatMul f q1 q2) P ∧ ‖P - Q1 * Q2‖ ≤ 8006 / 1000 * (‖Q1‖ * ‖Q2‖) / 2 ^ f.prec + 8 * 2 ^ f.emin := by
  obtain ⟨⟨d, sw, ew⟩, ⟨a, sx, ex⟩, ⟨b, sy, ey⟩, ⟨c, sz, ez⟩⟩ := h1
  obtain ⟨⟨d', sw', ew'⟩, ⟨a', sx', ex'⟩, ⟨b', sy', ey'⟩, ⟨c', sz', ez'⟩⟩ := h2
  have N1 := norm_sq4 Q1
  have N2 := norm_sq4 Q2
  have P1 := norm_nonneg Q1
  have P2 := norm_nonneg Q2
  rw [ew, ex, ey, ez] at N1
  rw [ew', ex', ey', ez'] at N2
  have c1 := cauchy4 P1 P2 d a b c d' a' b' c' N1 N2
  have c2 := cauchy4 P1 P2 d a b c a' d' c' b' N1 (by linarith)
  have c3 := cauchy4 P1 P2 d b c a b' d' a' c' (by linarith) (by linarith)
  have c4 := cauchy4 P1 P2 d c a b c' d' b' a' (by linarith) (by linarith)
  obtain ⟨r1, s1, e1⟩ := component4 hf h (t1 := d * d') (t2 := -(a * a')) (t3 := -(b * b')) (t4 := -(c * c')) (by push_cast; simpa only [abs_neg] using c1)
    (fun g => mul_term hf sw sw' g) (fun g => (mul_term hf sx sx' (by rwa [abs_neg] at g)).neg)
    (fun g => (mul_term hf sy sy' (by rwa [abs_neg] at g)).neg) (fun g => (mul_term hf sz sz' (by rwa [abs_neg] at g)).neg)
  obtain ⟨r2, s2, e2⟩ := component4 hf h (t1 := d * a') (t2 := a * d') (t3 := b * c') (t4 := -(c * b')) (by push_cast; simpa only [abs_neg] using c2)
    (fun g => mul_term hf sw sx' g) (fun g => mul_term hf sx sw' g) (fun g => mul_term hf sy sz' g)
    (fun g => (mul_term hf sz sy' (by rwa [abs_neg] at g)).neg)
  obtain ⟨r3, s3, e3⟩ := component4 hf h (t1 := d * b') (t2 := b * d') (t3 := c * a') (t4 := -(a * c')) (by push_cast; simpa only [abs_neg] using c3)
    (fun g => mul_term hf sw sy' g) (fun g => mul_term hf sy sw' g) (fun g => mul_term hf sz sx' g)
    (fun g => (mul_term hf sx sz' (by rwa [abs_neg] at g)).neg)
  obtain ⟨r4, s4, e4⟩ := component4 hf h (t1 := d * c') (t2 := c * d') (t3 := a * b') (t4 := -(b * a')) (by push_cast; simpa only [abs_neg] using c4)
    (fun g => mul_term hf sw sz' g) (fun g => mul_term hf sz sw' g) (fun g => mul_term hf sx sy' g)
    (fun g => (mul_term hf sy sx' (by rwa [abs_neg] at g)).neg)
  push_cast at e1 e2 e3 e4
  refine ⟨quatOf r1 r2 r3 r4, ⟨⟨r1, s1, rfl⟩, ⟨r2, s2, rfl⟩, ⟨r3, s3, rfl⟩, ⟨r4, s4, rfl⟩⟩, ?_⟩
  have g1 : (quatOf r1 r2 r3 r4 - Q1 * Q2).re = r1 - (d * d' + -(a * a') + -(b * b') + -(c * c')) := by
    simp [ew, ex, ey, ez, ew', ex', ey', ez']; ring
  have g2 : (quatOf r1 r2 r3 r4 - Q1 * Q2).imI = r2 - (d * a' + a * d' + b * c' + -(c * b')) := by
    simp [ew, ex, ey, ez, ew', ex', ey', ez']; ring
  have g3 : (quatOf r1 r2 r3 r4 - Q1 * Q2).imJ = r3 - (d * b' + b * d' + c * a' + -(a * c')) := by
    simp [ew, ex, ey, ez, ew', ex', ey', ez']; ring
  have g4 : (quatOf r1 r2 r3 r4 - Q1 * Q2).imK = r4 - (d * c' + c * d' + a * b' + -(b * a')) := by
    simp [ew, ex, ey, ez, ew', ex', ey', ez']; ring
  rw [← g1] at e1
  rw [← g2] at e2
  rw [← g3] at e3
  rw [← g4] at e4
  refine (norm_le4 e1 e2 e3 e4).trans (le_of_eq ?_)
  ring

/-! ## Vectors -/

theorem norm_le3 {V : ℍ[ℝ]} {E : ℝ} (h : V.re = 0) (hx : |V.imI| ≤ E) (hy : |V.imJ| ≤ E) (hz : |V.imK| ≤ E) : ‖V‖ ≤ 17321 / 10000 * E := by
  have h0 : 0 ≤ E := (abs_nonneg _).trans hx
  refine le_of_sq_le_sq ?_ (by linarith)
  rw [norm_sq4, h]
  have := sq_le_sq' (abs_le.1 hx).1 (abs_le.1 hx).2
  have := sq_le_sq' (abs_le.1 hy).1 (abs_le.1 hy).2
  have := sq_le_sq' (abs_le.1 hz).1 (abs_le.1 hz).2
  nlinarith

theorem abs_le_norm (V : ℍ[ℝ]) : |V.re| ≤ ‖V‖ ∧ |V.imI| ≤ ‖V‖ ∧ |V.imJ| ≤ ‖V‖ ∧ |V.imK| ≤ ‖V‖ := by
  have h := norm_sq4 V
  have n := norm_nonneg V
  refine ⟨?_, ?_, ?_, ?_⟩ <;> apply abs_le_of_sq_le_sq _ n <;> nlinarith [sq_nonneg V.re, sq_nonneg V.imI, sq_nonneg V.imJ, sq_nonneg V.imK]

/-- Errors that are relative to the components. -/
theorem norm_rel {V X : ℍ[ℝ]} {u h : ℝ} (hu : 0 ≤ u) (hh : 0 ≤ h) (h0 : V.re = 0) (hx : |V.imI| ≤ u * |X.imI| + h)
    (hy : |V.imJ| ≤ u * |X.imJ| + h) (hz : |V.imK| ≤ u * |X.imK| + h) : ‖V‖ ≤ u * ‖X‖ + 17321 / 10000 * h := by
  have n := norm_nonneg X
  refine le_of_sq_le_sq ?_ (by positivity)
  have e := norm_sq4 X
  have s1 : |X.imI| + |X.imJ| + |X.imK| ≤ 17321 / 10000 * ‖X‖ := by
    refine le_of_sq_le_sq ?_ (by positivity)
    rw [mul_pow, e, ← sq_abs X.imI, ← sq_abs X.imJ, ← sq_abs X.imK]
    nlinarith [sq_nonneg (|X.imI| - |X.imJ|), sq_nonneg (|X.imI| - |X.imK|), sq_nonneg (|X.imJ| - |X.imK|), sq_nonneg X.re,
      sq_nonneg |X.imI|, sq_nonneg |X.imJ|, sq_nonneg |X.imK|]
  rw [norm_sq4, h0, ← sq_abs V.imI, ← sq_abs V.imJ, ← sq_abs V.imK]
  have a1 := pow_le_pow_left₀ (abs_nonneg _) hx 2
  have a2 := pow_le_pow_left₀ (abs_nonneg _) hy 2
  have a3 := pow_le_pow_left₀ (abs_nonneg _) hz 2
  have b : u * h * (|X.imI| + |X.imJ| + |X.imK|) ≤ u * h * (17321 / 10000 * ‖X‖) := by gcongr
  have c : u ^ 2 * (X.imI ^ 2 + X.imJ ^ 2 + X.imK ^ 2) ≤ u ^ 2 * ‖X‖ ^ 2 := by
    apply mul_le_mul_of_nonneg_left _ (by positivity)
    nlinarith [sq_nonneg X.re]
  rw [← sq_abs X.imI, ← sq_abs X.imJ, ← sq_abs X.imK] at c
  nlinarith [sq_nonneg h]

theorem norm_rel4 {V X : ℍ[ℝ]} {u h : ℝ} (hu : 0 ≤ u) (hh : 0 ≤ h) (hw : |V.re| ≤ u * |X.re| + h) (hx : |V.imI| ≤ u * |X.imI| + h)
    (hy : |V.imJ| ≤ u * |X.imJ| + h) (hz : |V.imK| ≤ u * |X.imK| + h) : ‖V‖ ≤ u * ‖X‖ + 2 * h := by
  have n := norm_nonneg X
  refine le_of_sq_le_sq ?_ (by positivity)
  have e := norm_sq4 X
  have s1 : |X.re| + |X.imI| + |X.imJ| + |X.imK| ≤ 2 * ‖X‖ := by
    refine le_of_sq_le_sq ?_ (by positivity)
    rw [mul_pow, e, ← sq_abs X.re, ← sq_abs X.imI, ← sq_abs X.imJ, ← sq_abs X.imK]
    nlinarith [sq_nonneg (|X.imI| - |X.imJ|), sq_nonneg (|X.imI| - |X.imK|), sq_nonneg (|X.imJ| - |X.imK|), sq_nonneg (|X.re| - |X.imI|),
      sq_nonneg (|X.re| - |X.imJ|), sq_nonneg (|X.re| - |X.imK|)]
  rw [norm_sq4, ← sq_abs V.re, ← sq_abs V.imI, ← sq_abs V.imJ, ← sq_abs V.imK]
  have a0 := pow_le_pow_left₀ (abs_nonneg _) hw 2
  have a1 := pow_le_pow_left₀ (abs_nonneg _) hx 2
  have a2 := pow_le_pow_left₀ (abs_nonneg _) hy 2
  have a3 := pow_le_pow_left₀ (abs_nonneg _) hz 2
  have b : u * h * (|X.re| + |X.imI| + |X.imJ| + |X.imK|) ≤ u * h * (2 * ‖X‖) := by gcongr
  have c : u ^ 2 * (|X.re| ^ 2 + |X.imI| ^ 2 + |X.imJ| ^ 2 + |X.imK| ^ 2) = u ^ 2 * ‖X‖ ^ 2 := by
    rw [e]; simp only [sq_abs]
  linarith [c, b, a0, a1, a2, a3, show (u * |X.re| + h) ^ 2 + (u * |X.imI| + h) ^ 2 + (u * |X.imJ| + h) ^ 2 + (u * |X.imK| + h) ^ 2 =
    u ^ 2 * (|X.re| ^ 2 + |X.imI| ^ 2 + |X.imJ| ^ 2 + |X.imK| ^ 2) + 2 * (u * h * (|X.re| + |X.imI| + |X.imJ| + |X.imK|)) + 4 * h ^ 2 by ring,
    show (u * ‖X‖ + 2 * h) ^ 2 = u ^ 2 * ‖X‖ ^ 2 + 2 * (u * h * (2 * ‖X‖)) + 4 * h ^ 2 by ring]

/-- The cross product of the vector parts. -/
noncomputable def crossQ (Q V : ℍ[ℝ]) : ℍ[ℝ] :=
  quatOf 0 (Q.imJ * V.imK - Q.imK * V.imJ) (Q.imK * V.imI - Q.imI * V.imK) (Q.imI * V.imJ - Q.imJ * V.imI)

theorem crossQ_norm (Q V : ℍ[ℝ]) : ‖crossQ Q V‖ ≤ ‖Q.im‖ * ‖V‖ := by
  refine le_of_sq_le_sq ?_ (by positivity)
  rw [mul_pow, norm_sq4, norm_sq4 Q.im, norm_sq4 V]
  simp only [crossQ, quatOf_re, quatOf_imI, quatOf_imJ, quatOf_imK, Quaternion.re_im, Quaternion.imI_im, Quaternion.imJ_im, Quaternion.imK_im]
  nlinarith [sq_nonneg (Q.imI * V.imI + Q.imJ * V.imJ + Q.imK * V.imK), mul_nonneg (sq_nonneg Q.imI) (sq_nonneg V.re),
    mul_nonneg (sq_nonneg Q.imJ) (sq_nonneg V.re), mul_nonneg (sq_nonneg Q.imK) (sq_nonneg V.re)]

theorem crossQ_sub (Q V W : ℍ[ℝ]) : crossQ Q (V - W) = crossQ Q V - crossQ Q W := by
  ext <;> simp [crossQ] <;> ring

/-- The difference of two products, one component of a cross product. -/
theorem component2 {f : Fmt} (hf : f = .double ∨ f = .single) {B : ℝ} (hB : B ≤ f.maxVal / 2) {x y x' y' : Flt} {a b a' b' : ℚ}
    (hx : Stands f x a) (hy : Stands f y b) (hx' : Stands f x' a') (hy' : Stands f y' b') (hT : |(a * b : ℝ)| + |(a' * b' : ℝ)| ≤ B) :
    ∃ r : ℚ, Stands f (f.sub (f.mul x y) (f.mul x' y')) r ∧
      |(r : ℝ) - (a * b - a' * b')| ≤ 2001 / 1000 * B / 2 ^ f.prec + 2 * 2 ^ f.emin := by
  have h1 := abs_nonneg (a * b)
  have h2 := abs_nonneg (a' * b')
  have h : |a * b| + |a' * b'| ≤ f.maxVal / 2 := by
    have : ((|a * b| + |a' * b'| : ℚ) : ℝ) ≤ ((f.maxVal / 2 : ℚ) : ℝ) := by push_cast; linarith
    exact_mod_cast this
  have A := (mul_term hf hx hy (by linarith)).acc
  have B' := A.step hf (mul_term hf hx' hy' (by linarith)).neg (by rw [abs_neg]; linarith) (by norm_num) (by norm_num) (by norm_num) (by norm_num)
  refine ⟨_, B'.stands, ?_⟩
  have e := B'.err
  rw [abs_neg, ← sub_eq_add_neg (a * b)] at e
  generalize f.srnd (f.srnd (a * b) + -f.srnd (a' * b')) = r at e ⊢
  have e' : ((|r - (a * b - a' * b')| : ℚ) : ℝ) ≤ (((1 + 1001 / 1000) * ((|a * b| + |a' * b'|) / 2 ^ f.prec) + (1 + 1) * 2 ^ f.emin : ℚ) : ℝ) :=
    by exact_mod_cast e
  push_cast at e'
  refine e'.trans ?_
  have : (|(a * b : ℝ)| + |(a' * b' : ℝ)|) / 2 ^ f.prec ≤ B / 2 ^ f.prec := by gcongr
  rw [mul_div_assoc]
  linarith

theorem cross_close {f : Fmt} (hf : f = .double ∨ f = .single) {v w : Vec3 Flt} {V W : ℍ[ℝ]} (h1 : StandsVec f v V)
    (h2 : StandsVec f w W) (h : ‖V‖ * ‖W‖ ≤ f.maxVal / 2) :
    ∃ R, StandsVec f (crossProduct f v w) R ∧ ‖R - crossQ V W‖ ≤ 3466 / 1000 * (‖V‖ * ‖W‖) / 2 ^ f.prec + 4 * 2 ^ f.emin := by
  obtain ⟨z1, ⟨a, sx, ex⟩, ⟨b, sy, ey⟩, ⟨c, sz, ez⟩⟩ := h1
  obtain ⟨z2, ⟨a', sx', ex'⟩, ⟨b', sy', ey'⟩, ⟨c', sz', ez'⟩⟩ := h2
  have N1 := norm_sq4 V
  have N2 := norm_sq4 W
  have P1 := norm_nonneg V
  have P2 := norm_nonneg W
  rw [z1, ex, ey, ez] at N1
  rw [z2, ex', ey', ez'] at N2
  have c1 := cauchy4 P1 P2 0 a b c 0 a' c' b' N1 (by linarith)
  have c2 := cauchy4 P1 P2 0 b c a 0 b' a' c' (by linarith) (by linarith)
  have c3 := cauchy4 P1 P2 0 c a b 0 c' b' a' (by linarith) (by linarith)
  have k1 := abs_nonneg ((a : ℝ) * a')
  have k2 := abs_nonneg ((b : ℝ) * b')
  have k3 := abs_nonneg ((c : ℝ) * c')
  rw [mul_zero, abs_zero] at c1 c2 c3
  obtain ⟨r1, s1, e1⟩ := component2 hf h sy sz' sz sy' (by linarith)
  obtain ⟨r2, s2, e2⟩ := component2 hf h sz sx' sx sz' (by linarith)
  obtain ⟨r3, s3, e3⟩ := component2 hf h sx sy' sy sx' (by linarith)
  refine ⟨quatOf 0 r1 r2 r3, ⟨rfl, ⟨r1, s1, rfl⟩, ⟨r2, s2, rfl⟩, ⟨r3, s3, rfl⟩⟩, ?_⟩
  have g0 : (quatOf 0 r1 r2 r3 - crossQ V W).re = 0 := by simp [crossQ]
  have g1 : (quatOf 0 r1 r2 r3 - crossQ V W).imI = r1 - (b * c' - c * b') := by simp [crossQ, ex, ey, ez, ex', ey', ez']
  have g2 : (quatOf 0 r1 r2 r3 - crossQ V W).imJ = r2 - (c * a' - a * c') := by simp [crossQ, ex, ey, ez, ex', ey', ez']
  have g3 : (quatOf 0 r1 r2 r3 - crossQ V W).imK = r3 - (a * b' - b * a') := by simp [crossQ, ex, ey, ez, ex', ey', ez']
  rw [← g1] at e1
  rw [← g2] at e2
  rw [← g3] at e3
  refine (norm_le3 g0 e1 e2 e3).trans ?_
  have : 0 ≤ ‖V‖ * ‖W‖ / 2 ^ f.prec := by positivity
  have : (0 : ℝ) < 2 ^ f.emin := by positivity
  rw [mul_div_assoc (2001 / 1000), mul_div_assoc (3466 / 1000)]
  linarith

theorem StandsReal.max {f : Fmt} {x : Flt} {r : ℝ} (h : StandsReal f x r) : |r| ≤ f.maxVal := by
  obtain ⟨a, s, rfl⟩ := h
  exact_mod_cast s.abs_le

/-- A rounded product. -/
theorem mul_real {f : Fmt} (hf : f = .double ∨ f = .single) {x y : Flt} {a b : ℝ} (hx : StandsReal f x a) (hy : StandsReal f y b)
    (h : |a * b| ≤ f.maxVal) : ∃ r, StandsReal f (f.mul x y) r ∧ |r - a * b| ≤ 1 / 2 ^ f.prec * |a * b| + 2 ^ f.emin / 2 := by
  obtain ⟨a, sa, rfl⟩ := hx
  obtain ⟨b, sb, rfl⟩ := hy
  have h' : |a * b| ≤ f.maxVal := by exact_mod_cast h
  refine ⟨_, ⟨_, mul_stands hf sa sb h', rfl⟩, ?_⟩
  have e := srnd_err (f := f) (a * b)
  have e' : ((|f.srnd (a * b) - a * b| : ℚ) : ℝ) ≤ ((|a * b| / 2 ^ f.prec + 2 ^ f.emin / 2 : ℚ) : ℝ) := by exact_mod_cast e
  push_cast at e'
  rw [one_div_mul_eq_div]
  exact e'

/-- A rounded sum. -/
theorem add_real {f : Fmt} (hf : f = .double ∨ f = .single) {x y : Flt} {a b : ℝ} (hx : StandsReal f x a) (hy : StandsReal f y b)
    (h : |a + b| ≤ f.maxVal) : ∃ r, StandsReal f (f.add x y) r ∧ |r - (a + b)| ≤ 1 / 2 ^ f.prec * |a + b| + 0 := by
  obtain ⟨a, sa, rfl⟩ := hx
  obtain ⟨b, sb, rfl⟩ := hy
  have h' : |a + b| ≤ f.maxVal := by exact_mod_cast h
  refine ⟨_, ⟨_, add_stands hf sa sb h', rfl⟩, ?_⟩
  have e := srnd_rel (f := f) (prec_pos hf) (multiple_add (binary_mul sa.binary) (binary_mul sb.binary))
  have e' : ((|f.srnd (a + b) - (a + b)| : ℚ) : ℝ) ≤ ((|a + b| / 2 ^ f.prec : ℚ) : ℝ) := by exact_mod_cast e
  push_cast at e'
  rw [one_div_mul_eq_div, add_zero]
  exact e'

/-- Doubling is exact. -/
theorem double_real {f : Fmt} (hf : f = .double ∨ f = .single) {x : Flt} {a : ℝ} (hx : StandsReal f x a) (h : |2 * a| ≤ f.maxVal) :
    StandsReal f (f.mul (.fin false 2) x) (2 * a) := by
  obtain ⟨a, sa, rfl⟩ := hx
  have h' : |2 * a| ≤ f.maxVal := by exact_mod_cast h
  have s2 : Stands f (.fin false 2) 2 :=
    ⟨⟨by norm_num, by linarith [(fmt_consts hf).2.2.2, (by norm_num : (2 : ℚ) ≤ 2 ^ 100)], by simpa using pow_binary hf 1⟩, rfl⟩
  refine ⟨2 * a, ?_, by push_cast; rfl⟩
  have := mul_stands hf s2 sa h'
  rwa [Fmt.srnd_self (prec_pos hf)] at this
  obtain ⟨m, e, h1, h2, h3⟩ := sa.binary
  refine ⟨m, e + 1, h1, by omega, ?_⟩
  rw [h3, zpow_add₀ (by norm_num)]
  ring

theorem scaleVec_close {f : Fmt} (hf : f = .double ∨ f = .single) {v : Vec3 Flt} {V : ℍ[ℝ]} {s : Flt} {c : ℝ} (h1 : StandsVec f v V)
    (h2 : StandsReal f s c) (h : |c| * ‖V‖ ≤ f.maxVal) :
    ∃ R, StandsVec f (scale f v s) R ∧ ‖R - c • V‖ ≤ 1 / 2 ^ f.prec * (|c| * ‖V‖) + 2 ^ f.emin := by
  obtain ⟨z1, sx, sy, sz⟩ := h1
  obtain ⟨_, n1, n2, n3⟩ := abs_le_norm V
  have key : ∀ t : ℝ, |t| ≤ ‖V‖ → |t * c| ≤ f.maxVal := fun t ht => by
    rw [abs_mul, mul_comm]
    exact (mul_le_mul_of_nonneg_left ht (abs_nonneg _)).trans h
  obtain ⟨r1, s1, e1⟩ := mul_real hf sx h2 (key _ n1)
  obtain ⟨r2, s2, e2⟩ := mul_real hf sy h2 (key _ n2)
  obtain ⟨r3, s3, e3⟩ := mul_real hf sz h2 (key _ n3)
  refine ⟨quatOf 0 r1 r2 r3, ⟨rfl, s1, s2, s3⟩, ?_⟩
  have nc : ‖c • V‖ = |c| * ‖V‖ := by rw [norm_smul, Real.norm_eq_abs]
  have := norm_rel (V := quatOf 0 r1 r2 r3 - c • V) (X := c • V) (u := 1 / 2 ^ f.prec) (h := 2 ^ f.emin / 2) (by positivity) (by positivity)
    (by simp [z1]) (by simpa [mul_comm c] using e1) (by simpa [mul_comm c] using e2) (by simpa [mul_comm c] using e3)
  rw [nc] at this
  have : (0 : ℝ) < 2 ^ f.emin := by positivity
  linarith

theorem addVec_close {f : Fmt} (hf : f = .double ∨ f = .single) {v w : Vec3 Flt} {V W : ℍ[ℝ]} (h1 : StandsVec f v V)
    (h2 : StandsVec f w W) (h : ‖V + W‖ ≤ f.maxVal) :
    ∃ R, StandsVec f (vecAdd f v w) R ∧ ‖R - (V + W)‖ ≤ 1 / 2 ^ f.prec * ‖V + W‖ := by
  obtain ⟨z1, sx, sy, sz⟩ := h1
  obtain ⟨z2, sx', sy', sz'⟩ := h2
  obtain ⟨_, n1, n2, n3⟩ := abs_le_norm (V + W)
  obtain ⟨r1, s1, e1⟩ := add_real hf sx sx' (n1.trans h)
  obtain ⟨r2, s2, e2⟩ := add_real hf sy sy' (n2.trans h)
  obtain ⟨r3, s3, e3⟩ := add_real hf sz sz' (n3.trans h)
  refine ⟨quatOf 0 r1 r2 r3, ⟨rfl, s1, s2, s3⟩, ?_⟩
  have := norm_rel (V := quatOf 0 r1 r2 r3 - (V + W)) (X := V + W) (u := 1 / 2 ^ f.prec) (h := 0) (by positivity) le_rfl
    (by simp [z1, z2]) e1 e2 e3
  linarith

theorem double_vec {f : Fmt} (hf : f = .double ∨ f = .single) {v : Vec3 Flt} {V : ℍ[ℝ]} (h1 : StandsVec f v V) (h : 2 * ‖V‖ ≤ f.maxVal) :
    StandsVec f (scale f v (.fin false 2)) ((2 : ℝ) • V) := by
  obtain ⟨z1, sx, sy, sz⟩ := h1
  obtain ⟨_, n1, n2, n3⟩ := abs_le_norm V
  have key : ∀ t : ℝ, |t| ≤ ‖V‖ → |2 * t| ≤ f.maxVal := fun t ht => by
    rw [abs_mul, abs_two]
    linarith
  have a := double_real hf sx (key _ n1)
  have b := double_real hf sy (key _ n2)
  have c := double_real hf sz (key _ n3)
  rw [f.mul_comm] at a b c
  exact ⟨by simp [z1], by simpa [scale] using a, by simpa [scale] using b, by simpa [scale] using c⟩

/-- The formula of the code, without rounding. -/
noncomputable def rotQ (Q V : ℍ[ℝ]) : ℍ[ℝ] := V + (2 * Q.re) • crossQ Q V + (2 : ℝ) • crossQ Q (crossQ Q V)

theorem rotQ_eq (Q V : ℍ[ℝ]) (h : V.re = 0) : rotQ Q V = Q * V * star Q + (1 - ‖Q‖ ^ 2) • V := by
  rw [norm_sq4]
  ext <;> simp [rotQ, crossQ, h] <;> ring

theorem im_norm (Q : ℍ[ℝ]) : |Q.re| ^ 2 + ‖Q.im‖ ^ 2 = ‖Q‖ ^ 2 := by
  have a := norm_sq4 Q
  have b := norm_sq4 Q.im
  rw [a, b, sq_abs]
  simp
  ring

theorem rotQ_norm (Q V : ℍ[ℝ]) (h : V.re = 0) (h1 : |‖Q‖ - 1| ≤ 1 / 1000) : ‖rotQ Q V‖ ≤ 101 / 100 * ‖V‖ := by
  rw [rotQ_eq Q V h]
  have n := norm_nonneg Q
  obtain ⟨a, b⟩ := abs_le.1 h1
  have c : |1 - ‖Q‖ ^ 2| ≤ 3 / 1000 := by rw [abs_le]; constructor <;> nlinarith
  calc ‖Q * V * star Q + (1 - ‖Q‖ ^ 2) • V‖ ≤ ‖Q * V * star Q‖ + ‖(1 - ‖Q‖ ^ 2) • V‖ := norm_add_le _ _
    _ = ‖Q‖ ^ 2 * ‖V‖ + |1 - ‖Q‖ ^ 2| * ‖V‖ := by
      rw [norm_mul, norm_mul, norm_star, norm_smul, Real.norm_eq_abs]; ring
    _ ≤ (1003 / 1000) * ‖V‖ + 3 / 1000 * ‖V‖ := by
      gcongr
      nlinarith
    _ ≤ 101 / 100 * ‖V‖ := by linarith [norm_nonneg V]

theorem real_consts {f : Fmt} (hf : f = .double ∨ f = .single) : 0 < 1 / (2 : ℝ) ^ f.prec ∧ 1 / (2 : ℝ) ^ f.prec ≤ 1 / 16777216 ∧
    0 < (2 : ℝ) ^ f.emin ∧ (2 : ℝ) ^ f.emin ≤ 1 / 10 ^ 30 ∧ (10 : ℝ) ^ 30 ≤ f.maxVal := by
  obtain ⟨h24, hn0, hn, hM⟩ := fmt_consts hf
  refine ⟨by positivity, one_div_le_one_div_of_le (by norm_num) (prec_real hf), by positivity, ?_, ?_⟩
  · have : (((2 : ℚ) ^ f.emin : ℚ) : ℝ) ≤ ((1 / 2 ^ 100 : ℚ) : ℝ) := by exact_mod_cast hn
    push_cast at this
    exact this.trans (by norm_num)
  · have : ((2 ^ 100 : ℚ) : ℝ) ≤ (f.maxVal : ℝ) := by exact_mod_cast hM
    push_cast at this
    exact le_trans (by norm_num) this

set_option maxHeartbeats 1000000 in
/-- The computed rotation is close to the formula. -/
theorem rotate_close {f : Fmt} (hf : f = .double ∨ f = .single) {q : Quat Flt} {Q : ℍ[ℝ]} {v : Vec3 Flt} {V : ℍ[ℝ]} (hq : StandsQuat f q Q)
    (hv : StandsVec f v V) (h1 : |‖Q‖ - 1| ≤ 1 / 1000) (h : ‖V‖ ≤ f.maxVal / 16) :
    ∃ R, StandsVec f (rotate f q v) R ∧ ‖R - rotQ Q V‖ ≤ 22 / 2 ^ f.prec * ‖V‖ + 26 * 2 ^ f.emin := by
  have hR := rotQ_norm Q V hv.1 h1
  obtain ⟨hu0, hu, hη0, hη, hM⟩ := real_consts hf
  have hM0 : (10 : ℝ) ^ 30 ≤ f.maxVal := hM
  have hg := im_norm Q
  have hg0 := norm_nonneg Q.im
  have hw0 := abs_nonneg Q.re
  have hl := norm_nonneg V
  obtain ⟨k1, k2⟩ := abs_le.1 h1
  have hn2 : ‖Q‖ ^ 2 ≤ 1003 / 1000 := by nlinarith [norm_nonneg Q]
  have hwg : 2 * (|Q.re| * ‖Q.im‖) ≤ 1003 / 1000 := by nlinarith [sq_nonneg (|Q.re| - ‖Q.im‖)]
  have hgg : ‖Q.im‖ * ‖Q.im‖ ≤ 1003 / 1000 := by nlinarith
  have hg1 : ‖Q.im‖ ≤ 1002 / 1000 := by nlinarith
  have hw1 : |Q.re| ≤ 1002 / 1000 := by nlinarith
  have hqv : StandsVec f (⟨q.x, q.y, q.z⟩ : Vec3 Flt) Q.im := ⟨by simp, by simpa using hq.2.1, by simpa using hq.2.2.1, by simpa using hq.2.2.2⟩
  have cr : ∀ W, crossQ Q.im W = crossQ Q W := fun W => by ext <;> simp [crossQ]
  set u := 1 / (2 : ℝ) ^ f.prec with hu_def
  set η := (2 : ℝ) ^ f.emin with hη_def
  set l := ‖V‖ with hl_def
  set g := ‖Q.im‖ with hg_def
  set w := |Q.re| with hw_def
  have ul0 : 0 ≤ u * l := by positivity
  have gl : g * l ≤ 1002 / 1000 * l := mul_le_mul_of_nonneg_right hg1 hl
  have gl0 : 0 ≤ g * l := by positivity
  have up : u * (u * l) ≤ 1 / 1000000 * (u * l) := by apply mul_le_mul_of_nonneg_right _ ul0; linarith
  have uη : u * η ≤ 1 / 1000000 * η := by apply mul_le_mul_of_nonneg_right _ hη0.le; linarith
  have ul : u * l ≤ 1 / 1000000 * l := by apply mul_le_mul_of_nonneg_right _ hl; linarith
  have gη : g * η ≤ 1002 / 1000 * η := mul_le_mul_of_nonneg_right hg1 hη0.le
  have wη : w * η ≤ 1002 / 1000 * η := mul_le_mul_of_nonneg_right hw1 hη0.le
  have ggp : g * g * (u * l) ≤ 1003 / 1000 * (u * l) := mul_le_mul_of_nonneg_right hgg ul0
  have wgp : 2 * (w * g) * (u * l) ≤ 1003 / 1000 * (u * l) := mul_le_mul_of_nonneg_right hwg ul0
  have ggl : g * g * l ≤ 1003 / 1000 * l := mul_le_mul_of_nonneg_right hgg hl
  have wgl : 2 * (w * g) * l ≤ 1003 / 1000 * l := mul_le_mul_of_nonneg_right hwg hl
  -- the first cross product
  obtain ⟨A, sA, eA⟩ := cross_close hf hqv hv (by nlinarith)
  rw [cr, mul_div_assoc, div_eq_mul_one_div _ ((2 : ℝ) ^ f.prec), ← hu_def] at eA
  have nA0 := crossQ_norm Q V
  rw [← hg_def, ← hl_def] at nA0
  have nA : ‖A‖ ≤ g * l + ‖A - crossQ Q V‖ := by
    have := norm_add_le (crossQ Q V) (A - crossQ Q V)
    rw [add_sub_cancel] at this
    linarith
  have gA : g * ‖A - crossQ Q V‖ ≤ 34765 / 10000 * (u * l) + 401 / 100 * η := by
    have := mul_le_mul_of_nonneg_left eA hg0
    have e : g * (3466 / 1000 * (g * l * u) + 4 * η) = 3466 / 1000 * (g * g * (u * l)) + 4 * (g * η) := by ring
    linarith
  have wA : 2 * (w * ‖A - crossQ Q V‖) ≤ 34765 / 10000 * (u * l) + 802 / 100 * η := by
    have := mul_le_mul_of_nonneg_left eA hw0
    have e : 2 * (w * (3466 / 1000 * (g * l * u) + 4 * η)) = 3466 / 1000 * (2 * (w * g) * (u * l)) + 8 * (w * η) := by ring
    linarith
  have gA' : g * ‖A‖ ≤ 1003 / 1000 * l + g * ‖A - crossQ Q V‖ := by
    have := mul_le_mul_of_nonneg_left nA hg0
    have e : g * (g * l + ‖A - crossQ Q V‖) = g * g * l + g * ‖A - crossQ Q V‖ := by ring
    linarith
  have wA' : 2 * (w * ‖A‖) ≤ 1003 / 1000 * l + 2 * (w * ‖A - crossQ Q V‖) := by
    have := mul_le_mul_of_nonneg_left nA hw0
    have e : 2 * (w * (g * l + ‖A - crossQ Q V‖)) = 2 * (w * g) * l + 2 * (w * ‖A - crossQ Q V‖) := by ring
    linarith
  -- the second
  obtain ⟨B, sB, eB⟩ := cross_close hf hqv sA (by linarith)
  rw [cr, mul_div_assoc, div_eq_mul_one_div _ ((2 : ℝ) ^ f.prec), ← hu_def, ← hg_def] at eB
  have uB : u * (g * ‖A‖) ≤ 10031 / 10000 * (u * l) + 1 / 1000 * η := by
    have := mul_le_mul_of_nonneg_left (gA'.trans (add_le_add_right gA _)) hu0.le
    have e : u * (1003 / 1000 * l + (34765 / 10000 * (u * l) + 401 / 100 * η)) =
      1003 / 1000 * (u * l) + 34765 / 10000 * (u * (u * l)) + 401 / 100 * (u * η) := by ring
    linarith
  have nB1 : ‖crossQ Q A - crossQ Q (crossQ Q V)‖ ≤ g * ‖A - crossQ Q V‖ := by
    rw [← crossQ_sub]
    exact crossQ_norm _ _
  have nB : ‖B - crossQ Q (crossQ Q V)‖ ≤ 696 / 100 * (u * l) + 802 / 100 * η := by
    have := norm_add_le (B - crossQ Q A) (crossQ Q A - crossQ Q (crossQ Q V))
    rw [sub_add_sub_cancel] at this
    linarith
  have nB' : ‖B‖ ≤ 11 / 10 * l + 9 * η := by
    have := norm_add_le (B - crossQ Q (crossQ Q V)) (crossQ Q (crossQ Q V))
    rw [sub_add_cancel] at this
    have h2 := crossQ_norm Q (crossQ Q V)
    have h3 := mul_le_mul_of_nonneg_left nA0 hg0
    have e : g * (g * l) = g * g * l := by ring
    linarith
  -- scaling
  have s2w := double_real hf hq.1 (by rw [abs_mul, abs_two]; linarith)
  have a2w : |2 * Q.re| = 2 * w := by rw [abs_mul, abs_two]
  obtain ⟨C, sC, eC⟩ := scaleVec_close hf sA s2w (by rw [a2w]; linarith)
  rw [a2w, ← hu_def, ← hη_def] at eC
  have uC : u * (2 * w * ‖A‖) ≤ 10031 / 10000 * (u * l) + 1 / 1000 * η := by
    have := mul_le_mul_of_nonneg_left (wA'.trans (add_le_add_right wA _)) hu0.le
    have e : u * (1003 / 1000 * l + (34765 / 10000 * (u * l) + 802 / 100 * η)) =
      1003 / 1000 * (u * l) + 34765 / 10000 * (u * (u * l)) + 802 / 100 * (u * η) := by ring
    have e2 : u * (2 * w * ‖A‖) = u * (2 * (w * ‖A‖)) := by ring
    linarith
  have nC : ‖C - (2 * Q.re) • crossQ Q V‖ ≤ 448 / 100 * (u * l) + 903 / 100 * η := by
    have := norm_add_le (C - (2 * Q.re) • A) ((2 * Q.re) • A - (2 * Q.re) • crossQ Q V)
    rw [sub_add_sub_cancel, ← smul_sub, norm_smul, Real.norm_eq_abs, a2w] at this
    linarith
  have sD := double_vec hf sB (by linarith)
  -- the sums
  have nVC : ‖V + C‖ ≤ 2004 / 1000 * l + 10 * η := by
    have h2 := norm_add_le V C
    have h3 := norm_add_le (C - (2 * Q.re) • A) ((2 * Q.re) • A)
    rw [sub_add_cancel, norm_smul, Real.norm_eq_abs, a2w] at h3
    linarith
  obtain ⟨E, sE, eE⟩ := addVec_close hf hv sC (by linarith)
  rw [← hu_def] at eE
  have nE : ‖E - (V + C)‖ ≤ 2005 / 1000 * (u * l) + 1 / 1000 * η := by
    have := mul_le_mul_of_nonneg_left nVC hu0.le
    have e : u * (2004 / 1000 * l + 10 * η) = 2004 / 1000 * (u * l) + 10 * (u * η) := by ring
    linarith
  have nX : ‖E + (2 : ℝ) • B - rotQ Q V‖ ≤ 2041 / 100 * (u * l) + 2509 / 100 * η := by
    have e : E + (2 : ℝ) • B - rotQ Q V = (E - (V + C)) + (C - (2 * Q.re) • crossQ Q V) + (2 : ℝ) • (B - crossQ Q (crossQ Q V)) := by
      rw [rotQ, smul_sub]; abel
    have h2 := norm_add₃_le (a := E - (V + C)) (b := C - (2 * Q.re) • crossQ Q V) (c := (2 : ℝ) • (B - crossQ Q (crossQ Q V)))
    rw [norm_smul, Real.norm_eq_abs, abs_two, ← e] at h2
    linarith
  have nX' : ‖E + (2 : ℝ) • B‖ ≤ 102 / 100 * l + 26 * η := by
    have h2 := norm_add_le (E + (2 : ℝ) • B - rotQ Q V) (rotQ Q V)
    rw [sub_add_cancel] at h2
    linarith
  obtain ⟨F, sF, eF⟩ := addVec_close hf sE sD (by linarith)
  rw [← hu_def] at eF
  refine ⟨F, sF, ?_⟩
  have h2 := norm_add_le (F - (E + (2 : ℝ) • B)) (E + (2 : ℝ) • B - rotQ Q V)
  rw [sub_add_sub_cancel] at h2
  have h3 := mul_le_mul_of_nonneg_left nX' hu0.le
  have e : 22 / 2 ^ f.prec * l = 22 * (u * l) := by rw [hu_def]; ring
  have e' : u * (102 / 100 * l + 26 * η) = 102 / 100 * (u * l) + 26 * (u * η) := by ring
  rw [e]
  linarith

end Flut
