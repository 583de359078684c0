import Verif.Model.FloatAxes
import Verif.Spec.FloatAxes
import Verif.Proofs.FloatRotation
import Verif.Props.RotationReal

/-! # A quaternion from three axes, in floating-point arithmetic -/

namespace Flut

open Spec FloatMath Quaternion

theorem emin_small {f : Fmt} (hf : f = .double ∨ f = .single) : (2 : ℝ) ^ f.emin ≤ 1 / 1000 * (1 / 2 ^ f.prec) := by
  have h : (2 : ℚ) ^ f.emin ≤ 1 / 1000 * (1 / 2 ^ f.prec) := by rcases hf with rfl | rfl <;> decide +kernel
  have : (((2 : ℚ) ^ f.emin : ℚ) : ℝ) ≤ ((1 / 1000 * (1 / 2 ^ f.prec) : ℚ) : ℝ) := by exact_mod_cast h
  push_cast at this; exact this

theorem sub_real {f : Fmt} (hf : f = .double ∨ f = .single) {x y : Flt} {a b : ℝ} (hx : StandsReal f x a) (hy : StandsReal f y b)
    (h : |a - b| ≤ f.maxVal) : ∃ r, StandsReal f (f.sub x y) r ∧ |r - (a - b)| ≤ 1 / 2 ^ f.prec * |a - b| := by
  obtain ⟨a, sa, rfl⟩ := hx
  obtain ⟨b, sb, rfl⟩ := hy
  have h' : |a - b| ≤ f.maxVal := by exact_mod_cast h
  refine ⟨_, ⟨_, sub_stands hf sa sb h', rfl⟩, ?_⟩
  have e := srnd_rel (f := f) (prec_pos hf) (multiple_add (binary_mul sa.binary) (multiple_neg (binary_mul sb.binary)))
  rw [← sub_eq_add_neg] at e
  have : ((|f.srnd (a - b) - (a - b)| : ℚ) : ℝ) ≤ ((|a - b| / 2 ^ f.prec : ℚ) : ℝ) := by exact_mod_cast e
  push_cast at this
  rw [div_eq_mul_one_div, mul_comm] at this
  exact this

theorem div_real {f : Fmt} (hf : f = .double ∨ f = .single) {x y : Flt} {a b : ℝ} (hx : StandsReal f x a) (hy : StandsReal f y b) (hb : b ≠ 0)
    (h : |a / b| ≤ f.maxVal) : ∃ r, StandsReal f (f.div x y) r ∧ |r - a / b| ≤ 1 / 2 ^ f.prec * |a / b| + 2 ^ f.emin / 2 := by
  obtain ⟨a, sa, rfl⟩ := hx
  obtain ⟨b, sb, rfl⟩ := hy
  have h' : |a / b| ≤ f.maxVal := by exact_mod_cast h
  refine ⟨_, ⟨_, div_stands hf sa sb (by exact_mod_cast hb) h', rfl⟩, ?_⟩
  have e := srnd_err (f := f) (a / b)
  have : ((|f.srnd (a / b) - a / b| : ℚ) : ℝ) ≤ ((|a / b| / 2 ^ f.prec + 2 ^ f.emin / 2 : ℚ) : ℝ) := by exact_mod_cast e
  push_cast at this
  rw [div_eq_mul_one_div (|_|), mul_comm] at this
  exact this

theorem sqrt_real {f : Fmt} (hf : f = .double ∨ f = .single) {x : Flt} {a : ℝ} (hx : StandsReal f x a) (h : 1 / 10 ≤ a) :
    ∃ r, StandsReal f (f.sqrt x) r ∧ |r - √a| ≤ 1 / 2 ^ f.prec * √a := by
  obtain ⟨a, sa, rfl⟩ := hx
  have h' : (1 / 10 : ℚ) ≤ a := by
    have : ((1 / 10 : ℚ) : ℝ) ≤ a := by push_cast; exact h
    exact_mod_cast this
  refine ⟨_, ⟨_, (sqrt_stands hf sa (by linarith)).2, rfl⟩, ?_⟩
  have := Fmt.rndRoot_rel f hf (q := a) (by linarith [(fmt_consts hf).2.2.1, (by norm_num : (1 : ℚ) / 2 ^ 100 ≤ 1 / 10)])
  rw [div_eq_mul_one_div, mul_comm] at this
  exact this

theorem half_real {f : Fmt} (hf : f = .double ∨ f = .single) : StandsReal f (.fin false (1 / 2)) (1 / 2) := by
  refine ⟨1 / 2, ⟨⟨by norm_num, by linarith [(fmt_consts hf).2.2.2, (by norm_num : (1 / 2 : ℚ) ≤ 2 ^ 100)], ?_⟩, rfl⟩, by norm_num⟩
  refine ⟨1, -1, ?_, ?_, by norm_num⟩
  · rw [abs_one]; exact one_lt_pow₀ (by norm_num) (by have := prec_pos hf; omega)
  · rcases hf with rfl | rfl <;> simp [Fmt.double, Fmt.single]

/-- The half of the root and the factor of the others, for a number close to a square `r * r`. -/
theorem halves_close {f : Fmt} (hf : f = .double ∨ f = .single) {s : Flt} {d r η : ℝ} (hs : StandsReal f s d) (h : |d - r * r| ≤ η)
    (hη : η ≤ 1 / 100) (hr : 0 ≤ r) (h1 : 99 / 100 ≤ r * r) (h2 : r ≤ 2) :
    (∃ a, StandsReal f (halves f s).1 a ∧ |a - 0.5 * r| ≤ 26 / 100 * η + 21 / 10 * (1 / 2 ^ f.prec)) ∧
    ∃ i, StandsReal f (halves f s).2 i ∧ |i - 0.5 / r| ≤ 28 / 100 * η + 165 / 100 * (1 / 2 ^ f.prec) ∧ |i| ≤ 52 / 100 := by
  obtain ⟨hu0, hu, hn0, hn, hM⟩ := real_consts hf
  have hsm := emin_small hf
  have hM1 : (100 : ℝ) ≤ f.maxVal := le_trans (by norm_num) hM
  obtain ⟨d1, d2⟩ := abs_le.1 h
  have hη0 : 0 ≤ η := (abs_nonneg _).trans h
  have hr1 : 99 / 100 ≤ r := by nlinarith
  have hd : 98 / 100 ≤ d := by linarith
  have hd' : d ≤ 402 / 100 := by nlinarith
  obtain ⟨ρ, sρ, eρ⟩ := sqrt_real hf hs (by linarith)
  have q1 : 98 / 100 ≤ √d := Real.le_sqrt_of_sq_le (by linarith)
  have q2 : √d ≤ 201 / 100 := Real.sqrt_le_iff.2 ⟨by norm_num, by linarith⟩
  have q3 : √d * √d = d := Real.mul_self_sqrt (by linarith)
  generalize √d = R at *
  generalize hU : 1 / (2 : ℝ) ^ f.prec = u at *
  generalize hN : (2 : ℝ) ^ f.emin = n at *
  have e1 : |R - r| ≤ 51 / 100 * η := by
    have hp : (R - r) * (R + r) = d - r * r := by rw [← q3]; ring
    rw [abs_le]
    constructor <;> nlinarith
  have e2 : |ρ - R| ≤ 201 / 100 * u := eρ.trans (by linarith [mul_le_mul_of_nonneg_left q2 hu0.le])
  have e3 : |ρ - r| ≤ 51 / 100 * η + 201 / 100 * u := by
    have := abs_add_le (ρ - R) (R - r)
    rw [show ρ - R + (R - r) = ρ - r by ring] at this
    linarith
  obtain ⟨b1, b2⟩ := abs_le.1 e3
  have p1 : 98 / 100 ≤ ρ := by linarith
  have p2 : ρ ≤ 202 / 100 := by linarith
  have half := half_real hf
  constructor
  · obtain ⟨a, sa, ea⟩ := mul_real hf half sρ (by rw [abs_of_nonneg (by linarith)]; linarith)
    refine ⟨a, sa, ?_⟩
    rw [abs_of_nonneg (by linarith : 0 ≤ 1 / 2 * ρ), hU, hN] at ea
    obtain ⟨c1, c2⟩ := abs_le.1 ea
    have : u * ρ ≤ u * (202 / 100) := mul_le_mul_of_nonneg_left p2 hu0.le
    rw [show (0.5 : ℝ) = 1 / 2 by norm_num, abs_le]
    constructor <;> linarith
  · have i1 : (1 / 2) / ρ ≤ 511 / 1000 := by rw [div_le_iff₀ (by linarith)]; linarith
    have i0 : 0 ≤ (1 / 2) / ρ := by positivity
    obtain ⟨i, si, ei⟩ := div_real hf half sρ (by linarith) (by rw [abs_of_nonneg i0]; linarith)
    rw [abs_of_nonneg i0, hU, hN] at ei
    have k : |1 / 2 / ρ - 0.5 / r| ≤ 53 / 100 * (51 / 100 * η + 201 / 100 * u) := by
      have : 1 / 2 / ρ - 0.5 / r = (r - ρ) * (1 / (2 * ρ * r)) := by
        have : ρ ≠ 0 := by linarith
        have : r ≠ 0 := by linarith
        field_simp; ring
      rw [this, abs_mul, abs_sub_comm, mul_comm]
      have h0 : |1 / (2 * ρ * r)| ≤ 53 / 100 := by
        have : 96 / 100 ≤ ρ * r := by
          have := mul_le_mul p1 hr1 (by norm_num) (by linarith)
          linarith
        rw [abs_of_nonneg (by positivity), div_le_iff₀ (by linarith)]
        linarith
      exact mul_le_mul h0 e3 (abs_nonneg _) (by norm_num)
    obtain ⟨c1, c2⟩ := abs_le.1 ei
    obtain ⟨k1, k2⟩ := abs_le.1 k
    have : u * (1 / 2 / ρ) ≤ u * (511 / 1000) := mul_le_mul_of_nonneg_left i1 hu0.le
    refine ⟨i, si, ?_, ?_⟩
    · rw [abs_le]
      constructor <;> linarith
    · rw [abs_le]
      constructor <;> linarith

/-- One of the other components. -/
theorem other_close {f : Fmt} (hf : f = .double ∨ f = .single) {x s : Flt} {m n i r ζ ξ : ℝ} (hx : StandsReal f x m) (hi : StandsReal f s i)
    (hm : |m - n| ≤ ζ) (hn : |n| ≤ 2) (he : |i - 0.5 / r| ≤ ξ) (h0 : |i| ≤ 52 / 100) (hζ : ζ ≤ 1 / 100) :
    ∃ q, StandsReal f (f.mul x s) q ∧ |q - n * (0.5 / r)| ≤ 52 / 100 * ζ + 2 * ξ + 11 / 10 * (1 / 2 ^ f.prec) := by
  obtain ⟨hu0, hu, hn0, hn', hM⟩ := real_consts hf
  have hsm := emin_small hf
  have hM1 : (100 : ℝ) ≤ f.maxVal := le_trans (by norm_num) hM
  have hm2 : |m| ≤ 201 / 100 := by
    obtain ⟨a1, a2⟩ := abs_le.1 hm
    obtain ⟨a3, a4⟩ := abs_le.1 hn
    rw [abs_le]; constructor <;> linarith
  have hmi : |m * i| ≤ 106 / 100 := by
    rw [abs_mul]
    nlinarith [abs_nonneg m, abs_nonneg i]
  obtain ⟨q, sq, eq⟩ := mul_real hf hx hi (hmi.trans (by linarith))
  refine ⟨q, sq, ?_⟩
  have k : |m * i - n * (0.5 / r)| ≤ 52 / 100 * ζ + 2 * ξ := by
    have e : m * i - n * (0.5 / r) = i * (m - n) + n * (i - 0.5 / r) := by ring
    rw [e]
    refine (abs_add_le _ _).trans (add_le_add ?_ ?_)
    · rw [abs_mul]; exact mul_le_mul h0 hm (abs_nonneg _) (by norm_num)
    · rw [abs_mul]; exact mul_le_mul hn he (abs_nonneg _) (by norm_num)
  generalize 1 / (2 : ℝ) ^ f.prec = u at *
  generalize (2 : ℝ) ^ f.emin = n' at *
  have := abs_add_le (q - m * i) (m * i - n * (0.5 / r))
  rw [show q - m * i + (m * i - n * (0.5 / r)) = q - n * (0.5 / r) by ring] at this
  have : u * |m * i| ≤ u * (106 / 100) := mul_le_mul_of_nonneg_left hmi hu0.le
  linarith

/-- A number of the format close to a number of at most one. -/
def NearUnit (f : Fmt) (δ : ℝ) (x : Flt) (a : ℝ) : Prop := ∃ a', StandsReal f x a' ∧ |a' - a| ≤ δ ∧ |a| ≤ 1

theorem NearUnit.neg {f : Fmt} {δ : ℝ} {x : Flt} {a : ℝ} (h : NearUnit f δ x a) : NearUnit f δ x.neg (-a) := by
  obtain ⟨_, ⟨q, s, rfl⟩, e, n⟩ := h
  refine ⟨_, ⟨-q, neg_stands s, rfl⟩, ?_, by rwa [abs_neg]⟩
  push_cast
  rw [show -(q : ℝ) - -a = -(q - a) by ring, abs_neg]
  exact e

theorem nearUnit_add {f : Fmt} (hf : f = .double ∨ f = .single) {δ : ℝ} (hδ : δ ≤ 1 / 1000) {x y : Flt} {a b : ℝ} (hx : NearUnit f δ x a) (hy : NearUnit f δ y b) :
    ∃ m, StandsReal f (f.add x y) m ∧ |m - (a + b)| ≤ 2 * δ + 21 / 10 * (1 / 2 ^ f.prec) := by
  obtain ⟨hu0, hu, hn0, hn', hM⟩ := real_consts hf
  have hM1 : (100 : ℝ) ≤ f.maxVal := le_trans (by norm_num) hM
  obtain ⟨a', sa, ea, na⟩ := hx
  obtain ⟨b', sb, eb, nb⟩ := hy
  have k : |a' + b'| ≤ 21 / 10 := by
    rw [abs_le] at *
    constructor <;> linarith
  obtain ⟨m, sm, em⟩ := add_real hf sa sb (k.trans (by linarith))
  refine ⟨m, sm, ?_⟩
  have := mul_le_mul_of_nonneg_left k hu0.le
  generalize 1 / (2 : ℝ) ^ f.prec = u at *
  generalize |a' + b'| = w at *
  rw [abs_le] at *
  constructor <;> linarith

theorem nearUnit_sub {f : Fmt} (hf : f = .double ∨ f = .single) {δ : ℝ} (hδ : δ ≤ 1 / 1000) {x y : Flt} {a b : ℝ} (hx : NearUnit f δ x a) (hy : NearUnit f δ y b) :
    ∃ m, StandsReal f (f.sub x y) m ∧ |m - (a - b)| ≤ 2 * δ + 21 / 10 * (1 / 2 ^ f.prec) := by
  have := nearUnit_add hf hδ hx hy.neg
  rwa [← sub_eq_add_neg] at this

theorem nearUnit_trace {f : Fmt} (hf : f = .double ∨ f = .single) {δ : ℝ} (hδ : δ ≤ 1 / 1000) {x y z : Flt} {a b c : ℝ} (hx : NearUnit f δ x a)
    (hy : NearUnit f δ y b) (hz : NearUnit f δ z c) :
    (∃ t, StandsReal f (f.add (f.add x y) z) t ∧ |t - (a + b + c)| ≤ 3 * δ + 52 / 10 * (1 / 2 ^ f.prec)) ∧
    ∃ d, StandsReal f (f.add (f.add (f.add x y) z) (.fin false 1)) d ∧ |d - (a + b + c + 1)| ≤ 3 * δ + 93 / 10 * (1 / 2 ^ f.prec) := by
  obtain ⟨hu0, hu, hn0, hn', hM⟩ := real_consts hf
  have hM1 : (100 : ℝ) ≤ f.maxVal := le_trans (by norm_num) hM
  obtain ⟨m, sm, em⟩ := nearUnit_add hf hδ hx hy
  obtain ⟨_, _, _, na⟩ := hx
  obtain ⟨_, _, _, nb⟩ := hy
  obtain ⟨c', sc, ec, nc⟩ := hz
  have k1 : |m + c'| ≤ 305 / 100 := by
    rw [abs_le] at *
    constructor <;> linarith
  obtain ⟨t, st, et⟩ := add_real hf sm sc (k1.trans (by linarith))
  have g1 := mul_le_mul_of_nonneg_left k1 hu0.le
  have et' : |t - (a + b + c)| ≤ 3 * δ + 52 / 10 * (1 / 2 ^ f.prec) := by
    generalize 1 / (2 : ℝ) ^ f.prec = u at *
    generalize |m + c'| = w at *
    rw [abs_le] at *
    constructor <;> linarith
  refine ⟨⟨t, st, et'⟩, ?_⟩
  have k2 : |t + 1| ≤ 405 / 100 := by
    rw [abs_le] at *
    constructor <;> linarith
  obtain ⟨d, sd, ed⟩ := add_real hf st ⟨1, one_stands hf, by norm_num⟩ (k2.trans (by linarith))
  refine ⟨d, sd, ?_⟩
  have g2 := mul_le_mul_of_nonneg_left k2 hu0.le
  generalize 1 / (2 : ℝ) ^ f.prec = u at *
  generalize |t + 1| = w at *
  rw [abs_le] at *
  constructor <;> linarith

/-- All components from the sum under the root and three sums or differences. -/
theorem pivot_close {f : Fmt} (hf : f = .double ∨ f = .single) {δ : ℝ} (hδ0 : 0 ≤ δ) (hδ : δ ≤ 1 / 1000) {s x y z : Flt} {d S r a b c a' b' c' : ℝ} (hs : StandsReal f s d)
    (he : |d - S| ≤ 3 * δ + 93 / 10 * (1 / 2 ^ f.prec)) (h1 : 99 / 100 ≤ S) (h2 : S ≤ 4) (hr : sqrtNum S = some r)
    (hx : StandsReal f x a') (ea : |a' - a| ≤ 2 * δ + 21 / 10 * (1 / 2 ^ f.prec)) (na : |a| ≤ 2)
    (hy : StandsReal f y b') (eb : |b' - b| ≤ 2 * δ + 21 / 10 * (1 / 2 ^ f.prec)) (nb : |b| ≤ 2)
    (hz : StandsReal f z c') (ec : |c' - c| ≤ 2 * δ + 21 / 10 * (1 / 2 ^ f.prec)) (nc : |c| ≤ 2) :
    (∃ q, StandsReal f (halves f s).1 q ∧ |q - 0.5 * r| ≤ 3 * δ + 11 * (1 / 2 ^ f.prec)) ∧
    (∃ q, StandsReal f (f.mul x (halves f s).2) q ∧ |q - a * (0.5 / r)| ≤ 3 * δ + 11 * (1 / 2 ^ f.prec)) ∧
    (∃ q, StandsReal f (f.mul y (halves f s).2) q ∧ |q - b * (0.5 / r)| ≤ 3 * δ + 11 * (1 / 2 ^ f.prec)) ∧
    ∃ q, StandsReal f (f.mul z (halves f s).2) q ∧ |q - c * (0.5 / r)| ≤ 3 * δ + 11 * (1 / 2 ^ f.prec) := by
  obtain ⟨hu0, hu, hn0, hn', hM⟩ := real_consts hf
  have hr' : r = √S := by
    unfold sqrtNum at hr
    rw [if_pos (by linarith)] at hr
    exact (Option.some.inj hr).symm
  have r0 : 0 ≤ r := by rw [hr']; exact Real.sqrt_nonneg _
  have rr : r * r = S := by rw [hr']; exact Real.mul_self_sqrt (by linarith)
  have r2 : r ≤ 2 := by rw [hr']; exact Real.sqrt_le_iff.2 ⟨by norm_num, by linarith⟩
  rw [← rr] at he h1
  obtain ⟨⟨q, sq, eq⟩, i, si, ei, ni⟩ := halves_close hf hs he (by linarith) r0 h1 r2
  obtain ⟨q1, s1, e1⟩ := other_close hf hx si ea na ei ni (by linarith)
  obtain ⟨q2, s2, e2⟩ := other_close hf hy si eb nb ei ni (by linarith)
  obtain ⟨q3, s3, e3⟩ := other_close hf hz si ec nc ei ni (by linarith)
  refine ⟨⟨q, sq, eq.trans ?_⟩, ⟨q1, s1, e1.trans ?_⟩, ⟨q2, s2, e2.trans ?_⟩, ⟨q3, s3, e3.trans ?_⟩⟩ <;> linarith

theorem Spec.RightHanded.frame {X Y Z : ℍ[ℝ]} (h : RightHanded X Y Z) :
    Frame ⟨X.imI, X.imJ, X.imK⟩ ⟨Y.imI, Y.imJ, Y.imK⟩ ⟨Z.imI, Z.imJ, Z.imK⟩ := by
  obtain ⟨⟨x0, y0, z0⟩, ⟨x1, y1⟩, h⟩ := h
  have nx := norm_sq4 X
  have ny := norm_sq4 Y
  rw [x0, x1] at nx
  rw [y0, y1] at ny
  have e0 : (X * Y).re = Z.re := by rw [h]
  have e1 : (X * Y).imI = Z.imI := by rw [h]
  have e2 : (X * Y).imJ = Z.imJ := by rw [h]
  have e3 : (X * Y).imK = Z.imK := by rw [h]
  simp only [Quaternion.re_mul, Quaternion.imI_mul, Quaternion.imJ_mul, Quaternion.imK_mul, x0, y0, z0] at e0 e1 e2 e3
  generalize X.imI = a at *
  generalize X.imJ = b at *
  generalize X.imK = c at *
  generalize Y.imI = d at *
  generalize Y.imJ = e at *
  generalize Y.imK = f at *
  constructor <;> simp only [Vec3.dot, Vec3.cross, Vec3.mk.injEq, ← e1, ← e2, ← e3]
  · linarith
  · linarith
  · linear_combination (-1 : ℝ) * nx * (d * d + e * e + f * f) - ny + (a * d + b * e + c * f) * e0
  · linarith
  · ring
  · ring
  · refine ⟨?_, ?_, ?_⟩ <;> ring

theorem axisI_eq : axisI = quatOf 0 1 0 0 := rfl
theorem axisJ_eq : axisJ = quatOf 0 0 1 0 := rfl
theorem axisK_eq : axisK = quatOf 0 0 0 1 := rfl

theorem turns_of_rot {q : Quat ℝ} {X Y Z : ℍ[ℝ]} (h : RightHanded X Y Z) (hq : q.sqLength = 1) (hx : q.rot Vec3.unitX = ⟨X.imI, X.imJ, X.imK⟩)
    (hy : q.rot Vec3.unitY = ⟨Y.imI, Y.imJ, Y.imK⟩) (hz : q.rot Vec3.unitZ = ⟨Z.imI, Z.imJ, Z.imK⟩) : Turns (quatOf q.w q.x q.y q.z) X Y Z := by
  obtain ⟨x0, y0, z0⟩ := h.vec
  have n : ‖quatOf q.w q.x q.y q.z‖ = 1 := by
    have := norm_sq4 (quatOf q.w q.x q.y q.z)
    simp only [quatOf_re, quatOf_imI, quatOf_imJ, quatOf_imK] at this
    unfold Quat.sqLength at hq
    have h1 : ‖quatOf q.w q.x q.y q.z‖ ^ 2 = 1 := by rw [this]; linarith
    exact (pow_eq_one_iff_of_nonneg (norm_nonneg _) (by norm_num)).1 h1
  have inv : (quatOf q.w q.x q.y q.z)⁻¹ = star (quatOf q.w q.x q.y q.z) := by
    rw [Quaternion.inv_def, Quaternion.normSq_eq_norm_mul_self, n]; simp
  have key : ∀ V : ℍ[ℝ], V.re = 0 → quatOf q.w q.x q.y q.z * V * (quatOf q.w q.x q.y q.z)⁻¹ = rotQ (quatOf q.w q.x q.y q.z) V := fun V hV => by
    rw [rotQ_eq _ _ hV, inv, n]; simp
  refine ⟨n, ?_, ?_, ?_⟩
  · rw [axisI_eq, key _ rfl]
    simp only [Quat.rot, Vec3.cross, Vec3.smul, Vec3.add, Vec3.unitX, Vec3.mk.injEq] at hx
    ext
    · simp [rotQ, crossQ, x0]
    · rw [← hx.1]; simp [rotQ, crossQ]; ring
    · rw [← hx.2.1]; simp [rotQ, crossQ]; ring
    · rw [← hx.2.2]; simp [rotQ, crossQ]; ring
  · rw [axisJ_eq, key _ rfl]
    simp only [Quat.rot, Vec3.cross, Vec3.smul, Vec3.add, Vec3.unitY, Vec3.mk.injEq] at hy
    ext
    · simp [rotQ, crossQ, y0]
    · rw [← hy.1]; simp [rotQ, crossQ]; ring
    · rw [← hy.2.1]; simp [rotQ, crossQ]; ring
    · rw [← hy.2.2]; simp [rotQ, crossQ]; ring
  · rw [axisK_eq, key _ rfl]
    simp only [Quat.rot, Vec3.cross, Vec3.smul, Vec3.add, Vec3.unitZ, Vec3.mk.injEq] at hz
    ext
    · simp [rotQ, crossQ, z0]
    · rw [← hz.1]; simp [rotQ, crossQ]; ring
    · rw [← hz.2.1]; simp [rotQ, crossQ]; ring
    · rw [← hz.2.2]; simp [rotQ, crossQ]; ring

theorem axesPivot_x (f : Fmt) {m : Mat33 Flt} (h : pivotOf m = 0) : axesPivot f m =
    ⟨f.mul (f.sub (m 2 1) (m 1 2)) (halves f (f.add (f.sub (f.sub (m 0 0) (m 1 1)) (m 2 2)) (.fin false 1))).2,
     (halves f (f.add (f.sub (f.sub (m 0 0) (m 1 1)) (m 2 2)) (.fin false 1))).1,
     f.mul (f.add (m 1 0) (m 0 1)) (halves f (f.add (f.sub (f.sub (m 0 0) (m 1 1)) (m 2 2)) (.fin false 1))).2,
     f.mul (f.add (m 2 0) (m 0 2)) (halves f (f.add (f.sub (f.sub (m 0 0) (m 1 1)) (m 2 2)) (.fin false 1))).2⟩ := by
  simp only [axesPivot, h, quatSet, Nat.reduceAdd, Nat.reduceMod]

theorem axesPivot_y (f : Fmt) {m : Mat33 Flt} (h : pivotOf m = 1) : axesPivot f m =
    ⟨f.mul (f.sub (m 0 2) (m 2 0)) (halves f (f.add (f.sub (f.sub (m 1 1) (m 2 2)) (m 0 0)) (.fin false 1))).2,
     f.mul (f.add (m 0 1) (m 1 0)) (halves f (f.add (f.sub (f.sub (m 1 1) (m 2 2)) (m 0 0)) (.fin false 1))).2,
     (halves f (f.add (f.sub (f.sub (m 1 1) (m 2 2)) (m 0 0)) (.fin false 1))).1,
     f.mul (f.add (m 2 1) (m 1 2)) (halves f (f.add (f.sub (f.sub (m 1 1) (m 2 2)) (m 0 0)) (.fin false 1))).2⟩ := by
  simp only [axesPivot, h, quatSet, Nat.reduceAdd, Nat.reduceMod]

theorem axesPivot_z (f : Fmt) {m : Mat33 Flt} (h : pivotOf m = 2) : axesPivot f m =
    ⟨f.mul (f.sub (m 1 0) (m 0 1)) (halves f (f.add (f.sub (f.sub (m 2 2) (m 0 0)) (m 1 1)) (.fin false 1))).2,
     f.mul (f.add (m 0 2) (m 2 0)) (halves f (f.add (f.sub (f.sub (m 2 2) (m 0 0)) (m 1 1)) (.fin false 1))).2,
     f.mul (f.add (m 1 2) (m 2 1)) (halves f (f.add (f.sub (f.sub (m 2 2) (m 0 0)) (m 1 1)) (.fin false 1))).2,
     (halves f (f.add (f.sub (f.sub (m 2 2) (m 0 0)) (m 1 1)) (.fin false 1))).1⟩ := by
  simp only [axesPivot, h, quatSet, Nat.reduceAdd, Nat.reduceMod]

/-- The chosen entry of the diagonal is at least the others. -/
theorem pivotOf_cases (m : Mat33 Flt) :
    (pivotOf m = 0 ∧ (m 0 0).lt (m 1 1) = false ∧ (m 0 0).lt (m 2 2) = false) ∨
    (pivotOf m = 1 ∧ (m 0 0).lt (m 1 1) = true ∧ (m 1 1).lt (m 2 2) = false) ∨
    (pivotOf m = 2 ∧ (((m 0 0).lt (m 1 1) = true ∧ (m 1 1).lt (m 2 2) = true) ∨ ((m 0 0).lt (m 1 1) = false ∧ (m 0 0).lt (m 2 2) = true))) := by
  unfold pivotOf
  cases h1 : (m 0 0).lt (m 1 1) with
  | true => cases h2 : (m 1 1).lt (m 2 2) <;> simp [h2]
  | false => cases h2 : (m 0 0).lt (m 2 2) <;> simp [h2]

end Flut
