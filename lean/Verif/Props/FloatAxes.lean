import Verif.Proofs.FloatAxes
import Verif.Props.FloatRotation

/-! # Property theorems: a quaternion from three axes in floating-point arithmetic (C154) -/

namespace Flut

open Spec FloatMath Quaternion

theorem nearUnit_of {f : Fmt} {δ : ℝ} {v : Vec3 Flt} {V' V : ℍ[ℝ]} (hv : StandsVec f v V') (he : ‖V' - V‖ ≤ δ) (h1 : ‖V‖ = 1) :
    NearUnit f δ v.x V.imI ∧ NearUnit f δ v.y V.imJ ∧ NearUnit f δ v.z V.imK := by
  obtain ⟨_, sx, sy, sz⟩ := hv
  obtain ⟨_, a1, a2, a3⟩ := abs_le_norm (V' - V)
  obtain ⟨_, b1, b2, b3⟩ := abs_le_norm V
  rw [h1] at b1 b2 b3
  exact ⟨⟨_, sx, a1.trans he, b1⟩, ⟨_, sy, a2.trans he, b2⟩, ⟨_, sz, a3.trans he, b3⟩⟩

theorem nearUnit_lt {f : Fmt} {δ : ℝ} {x y : Flt} {a b : ℝ} (hx : NearUnit f δ x a) (hy : NearUnit f δ y b) :
    (x.lt y = true → a - b ≤ 2 * δ) ∧ (x.lt y = false → b - a ≤ 2 * δ) := by
  obtain ⟨_, ⟨p, sp, rfl⟩, ep, _⟩ := hx
  obtain ⟨_, ⟨q, sq, rfl⟩, eq, _⟩ := hy
  rw [abs_le] at ep eq
  constructor
  · intro h
    have : (p : ℝ) < q := by exact_mod_cast (lt_stands sp sq).1 h
    linarith
  · intro h
    have : (q : ℝ) ≤ p := by
      have : ¬ p < q := fun c => by rw [(lt_stands sp sq).2 c] at h; exact absurd h (by simp)
      exact_mod_cast not_lt.1 this
    linarith

theorem two_abs {a b : ℝ} (ha : |a| ≤ 1) (hb : |b| ≤ 1) : |a + b| ≤ 2 ∧ |a - b| ≤ 2 := by
  rw [abs_le] at ha hb
  exact ⟨by rw [abs_le]; constructor <;> linarith, by rw [abs_le]; constructor <;> linarith⟩

/-- The four components together. -/
theorem quat_close {f : Fmt} {w x y z : Flt} {W X Y Z E : ℝ} (hw : ∃ q, StandsReal f w q ∧ |q - W| ≤ E) (hx : ∃ q, StandsReal f x q ∧ |q - X| ≤ E)
    (hy : ∃ q, StandsReal f y q ∧ |q - Y| ≤ E) (hz : ∃ q, StandsReal f z q ∧ |q - Z| ≤ E) :
    ∃ Q, StandsQuat f ⟨w, x, y, z⟩ Q ∧ ‖Q - quatOf W X Y Z‖ ≤ 2 * E := by
  obtain ⟨a, sa, ea⟩ := hw
  obtain ⟨b, sb, eb⟩ := hx
  obtain ⟨c, sc, ec⟩ := hy
  obtain ⟨d, sd, ed⟩ := hz
  exact ⟨quatOf a b c d, ⟨sa, sb, sc, sd⟩, norm_le4 (by simpa using ea) (by simpa using eb) (by simpa using ec) (by simpa using ed)⟩

/-- Three axes close to a right-handed frame give a quaternion close to a rotation that takes the coordinate axes to the frame. -/
theorem C154_axes (f : Fmt) (hf : f = .double ∨ f = .single) (x y z : Vec3 Flt) (X' Y' Z' X Y Z : ℍ[ℝ]) (δ : ℝ) (hx : StandsVec f x X')
    (hy : StandsVec f y Y') (hz : StandsVec f z Z') (h : RightHanded X Y Z) (ex : ‖X' - X‖ ≤ δ) (ey : ‖Y' - Y‖ ≤ δ) (ez : ‖Z' - Z‖ ≤ δ)
    (hδ : δ ≤ 1 / 1000) :
    ∃ Q P, StandsQuat f (axesQuat f x y z) Q ∧ Turns P X Y Z ∧ ‖Q - P‖ ≤ 6 * δ + 22 / 2 ^ f.prec := by
  obtain ⟨hu0, hu, hn0, hn', hM⟩ := real_consts hf
  have hδ0 : 0 ≤ δ := (norm_nonneg _).trans ex
  have F := h.frame
  have nZ : ‖Z‖ = 1 := by rw [← h.right, norm_mul, h.unit.1, h.unit.2, one_mul]
  obtain ⟨na, nb, nc⟩ := nearUnit_of hx ex h.unit.1
  obtain ⟨nd, ne, nf⟩ := nearUnit_of hy ey h.unit.2
  obtain ⟨ng, nh, ni⟩ := nearUnit_of hz ez nZ
  have fin : ∀ q0 : Quat ℝ, q0.sqLength = 1 ∧ q0.rot Vec3.unitX = ⟨X.imI, X.imJ, X.imK⟩ ∧ q0.rot Vec3.unitY = ⟨Y.imI, Y.imJ, Y.imK⟩ ∧
      q0.rot Vec3.unitZ = ⟨Z.imI, Z.imJ, Z.imK⟩ → ∀ w a b c,
      (∃ Q, StandsQuat f ⟨w, a, b, c⟩ Q ∧ ‖Q - quatOf q0.w q0.x q0.y q0.z‖ ≤ 2 * (3 * δ + 11 * (1 / 2 ^ f.prec))) →
      ∃ Q P, StandsQuat f ⟨w, a, b, c⟩ Q ∧ Turns P X Y Z ∧ ‖Q - P‖ ≤ 6 * δ + 22 / 2 ^ f.prec := by
    rintro q0 ⟨h1, h2, h3, h4⟩ w a b c ⟨Q, hQ, e⟩
    refine ⟨Q, _, hQ, turns_of_rot h h1 h2 h3 h4, e.trans (le_of_eq ?_)⟩
    ring
  obtain ⟨xa, xb, xc⟩ := x
  obtain ⟨ya, yb, yc⟩ := y
  obtain ⟨za, zb, zc⟩ := z
  dsimp only at *
  have ba := na.choose_spec.2.2
  have bb := nb.choose_spec.2.2
  have bc := nc.choose_spec.2.2
  have bd := nd.choose_spec.2.2
  have be := ne.choose_spec.2.2
  have bf := nf.choose_spec.2.2
  have bg := ng.choose_spec.2.2
  have bh := nh.choose_spec.2.2
  have bi := ni.choose_spec.2.2
  generalize X.imI = a at *
  generalize X.imJ = b at *
  generalize X.imK = c at *
  generalize Y.imI = d at *
  generalize Y.imJ = e at *
  generalize Y.imK = g at *
  generalize Z.imI = p at *
  generalize Z.imJ = s at *
  generalize Z.imK = i at *
  have ba' := abs_le.1 ba
  have be' := abs_le.1 be
  have bi' := abs_le.1 bi
  obtain ⟨⟨t, st, et⟩, dd, sd, ed⟩ := nearUnit_trace hf hδ na ne ni
  have ht := abs_le.1 et
  unfold axesQuat
  have z0 : StandsReal f (.fin false 0) 0 := ⟨0, zero_stands f hf false, by simp⟩
  have hsplit : (Flt.lt (.fin false 0) (f.add (f.add xa yb) zc) = true ∧ 0 < t) ∨
      (Flt.lt (.fin false 0) (f.add (f.add xa yb) zc) = false ∧ t ≤ 0) := by
    obtain ⟨tq, stq, rfl⟩ := st
    cases hl : Flt.lt (.fin false 0) (f.add (f.add xa yb) zc) with
    | true => exact .inl ⟨rfl, by exact_mod_cast (lt_stands (zero_stands f hf false) stq).1 hl⟩
    | false =>
      refine .inr ⟨rfl, ?_⟩
      have : ¬ 0 < tq := fun c => by rw [(lt_stands (zero_stands f hf false) stq).2 c] at hl; exact absurd hl (by simp)
      exact_mod_cast not_lt.1 this
  simp only [matFromAxes, Nat.reduceMul, Nat.reduceAdd, List.getD_cons_zero, List.getD_cons_succ]
  rcases hsplit with ⟨hl, ht0⟩ | ⟨hl, ht0⟩
  · simp only [hl, if_true, axesTrace]
    obtain ⟨r, h1, h2, q, h3, h4⟩ := F.pivot_w (by linarith)
    refine fin q h4 _ _ _ _ ?_
    obtain ⟨m1, s1, e1⟩ := nearUnit_sub hf hδ nf nh
    obtain ⟨m2, s2, e2⟩ := nearUnit_sub hf hδ ng nc
    obtain ⟨m3, s3, e3⟩ := nearUnit_sub hf hδ nb nd
    obtain ⟨k0, k1, k2, k3⟩ := pivot_close hf hδ0 hδ sd (S := 1 + a + e + i)
      (by rw [show 1 + a + e + i = a + e + i + 1 by ring]; exact ed) (by linarith) (by linarith) h1
      s1 e1 (two_abs bf bh).2 s2 e2 (two_abs bg bc).2 s3 e3 (two_abs bb bd).2
    rw [h3]
    exact quat_close k0 k1 k2 k3
  · rw [hl]
    rw [if_neg (by simp)]
    have l1 := nearUnit_lt na ne
    have l2 := nearUnit_lt na ni
    have l3 := nearUnit_lt ne ni
    rcases pivotOf_cases (matFromAxes ⟨xa, xb, xc⟩ ⟨ya, yb, yc⟩ ⟨za, zb, zc⟩) with ⟨hp, c1, c2⟩ | ⟨hp, c1, c2⟩ | ⟨hp, hc⟩
    · have g1 := l1.2 c1
      have g2 := l2.2 c2
      rw [axesPivot_x f hp]
      obtain ⟨r, h1, h2, q, h3, h4⟩ := F.pivot_x (by linarith)
      refine fin q h4 _ _ _ _ ?_
      obtain ⟨-, dx, sx, dex⟩ := nearUnit_trace hf hδ na ne.neg ni.neg
      obtain ⟨m1, s1, e1⟩ := nearUnit_sub hf hδ nf nh
      obtain ⟨m2, s2, e2⟩ := nearUnit_add hf hδ nb nd
      obtain ⟨m3, s3, e3⟩ := nearUnit_add hf hδ nc ng
      obtain ⟨k0, k1, k2, k3⟩ := pivot_close hf hδ0 hδ sx (S := 1 + a - e - i)
        (by rw [show 1 + a - e - i = a + -e + -i + 1 by ring]; exact dex) (by linarith) (by linarith) h1
        s1 e1 (two_abs bf bh).2 s2 e2 (two_abs bb bd).1 s3 e3 (two_abs bc bg).1
      rw [h3]
      exact quat_close k1 k0 k2 k3
    · have g1 := l1.1 c1
      have g2 := l3.2 c2
      rw [axesPivot_y f hp]
      obtain ⟨r, h1, h2, q, h3, h4⟩ := F.pivot_y (by linarith)
      refine fin q h4 _ _ _ _ ?_
      obtain ⟨-, dx, sx, dex⟩ := nearUnit_trace hf hδ ne ni.neg na.neg
      obtain ⟨m1, s1, e1⟩ := nearUnit_sub hf hδ ng nc
      obtain ⟨m2, s2, e2⟩ := nearUnit_add hf hδ nd nb
      obtain ⟨m3, s3, e3⟩ := nearUnit_add hf hδ nf nh
      obtain ⟨k0, k1, k2, k3⟩ := pivot_close hf hδ0 hδ sx (S := 1 - a + e - i)
        (by rw [show 1 - a + e - i = e + -i + -a + 1 by ring]; exact dex) (by linarith) (by linarith) h1
        s1 e1 (two_abs bg bc).2 s2 e2 (two_abs bd bb).1 s3 e3 (two_abs bf bh).1
      rw [h3]
      rw [add_comm d b] at k2
      exact quat_close k1 k2 k0 k3
    · have g1 : a - i ≤ 4 * δ ∧ e - i ≤ 4 * δ := by
        rcases hc with ⟨c1, c2⟩ | ⟨c1, c2⟩
        · have := l1.1 c1
          have := l3.1 c2
          constructor <;> linarith
        · have := l1.2 c1
          have := l2.1 c2
          constructor <;> linarith
      rw [axesPivot_z f hp]
      obtain ⟨r, h1, h2, q, h3, h4⟩ := F.pivot_z (by linarith)
      refine fin q h4 _ _ _ _ ?_
      obtain ⟨-, dx, sx, dex⟩ := nearUnit_trace hf hδ ni na.neg ne.neg
      obtain ⟨m1, s1, e1⟩ := nearUnit_sub hf hδ nb nd
      obtain ⟨m2, s2, e2⟩ := nearUnit_add hf hδ ng nc
      obtain ⟨m3, s3, e3⟩ := nearUnit_add hf hδ nh nf
      obtain ⟨k0, k1, k2, k3⟩ := pivot_close hf hδ0 hδ sx (S := 1 - a - e + i)
        (by rw [show 1 - a - e + i = i + -a + -e + 1 by ring]; exact dex) (by linarith) (by linarith) h1
        s1 e1 (two_abs bb bd).2 s2 e2 (two_abs bg bc).1 s3 e3 (two_abs bh bf).1
      rw [h3]
      rw [add_comm p c] at k2
      rw [add_comm s g] at k3
      exact quat_close k1 k2 k3 k0

/-- Rotating the coordinate axes by the quaternion gives the axes back. -/
theorem C154_rotation (f : Fmt) (hf : f = .double ∨ f = .single) (x y z : Vec3 Flt) (X' Y' Z' X Y Z : ℍ[ℝ]) (δ : ℝ) (hx : StandsVec f x X')
    (hy : StandsVec f y Y') (hz : StandsVec f z Z') (h : RightHanded X Y Z) (ex : ‖X' - X‖ ≤ δ) (ey : ‖Y' - Y‖ ≤ δ) (ez : ‖Z' - Z‖ ≤ δ)
    (hδ : δ ≤ 1 / 10000) (v : Vec3 Flt) (V W : ℍ[ℝ]) (hv : StandsVec f v V)
    (hV : V = axisI ∧ W = X ∨ V = axisJ ∧ W = Y ∨ V = axisK ∧ W = Z) :
    ∃ R, StandsVec f (rotate f (axesQuat f x y z) v) R ∧ ‖R - W‖ ≤ 44 * δ + 182 / 2 ^ f.prec := by
  obtain ⟨Q, P, hQ, ⟨p1, pi, pj, pk⟩, e⟩ := C154_axes f hf x y z X' Y' Z' X Y Z δ hx hy hz h ex ey ez (by linarith)
  obtain ⟨hu0, hu, hn0, hn', hM⟩ := real_consts hf
  have hsm := emin_small hf
  have hM1 : (100 : ℝ) ≤ f.maxVal := le_trans (by norm_num) hM
  have hδ0 : 0 ≤ δ := (norm_nonneg _).trans ex
  rw [show (22 : ℝ) / 2 ^ f.prec = 22 * (1 / 2 ^ f.prec) by ring] at e
  have hn : |‖Q‖ - 1| ≤ 6 * δ + 22 * (1 / 2 ^ f.prec) := by
    have := (abs_norm_sub_norm_le Q P).trans e
    rwa [p1] at this
  have n1 : ‖V‖ = 1 := by
    have key : ∀ W : ℍ[ℝ], ‖W‖ ^ 2 = 1 → ‖W‖ = 1 := fun W h => (pow_eq_one_iff_of_nonneg (norm_nonneg _) (by norm_num)).1 h
    rcases hV with ⟨rfl, -⟩ | ⟨rfl, -⟩ | ⟨rfl, -⟩ <;> refine key _ ?_ <;> rw [norm_sq4] <;> simp [axisI, axisJ, axisK]
  obtain ⟨R, sR, e1, -⟩ := C119_rotation f hf _ Q v V _ hQ hv hn (by linarith) (by rw [n1]; linarith)
  refine ⟨R, sR, ?_⟩
  have hP : P ≠ 0 := by
    intro h0
    rw [h0, norm_zero] at p1
    norm_num at p1
  have b := abs_le.1 hn
  have c := rotation_close (V := V) (by linarith) hP e
  rw [n1] at c e1
  have t := norm_add_le (R - Q * V * Q⁻¹) (Q * V * Q⁻¹ - P * V * P⁻¹)
  rw [sub_add_sub_cancel] at t
  have hW : P * V * P⁻¹ = W := by
    rcases hV with ⟨rfl, rfl⟩ | ⟨rfl, rfl⟩ | ⟨rfl, rfl⟩
    · exact pi
    · exact pj
    · exact pk
  rw [hW] at t c
  refine t.trans ?_
  rw [show (182 : ℝ) / 2 ^ f.prec = 182 * (1 / 2 ^ f.prec) by ring]
  rw [show (22 : ℝ) / 2 ^ f.prec = 22 * (1 / 2 ^ f.prec) by ring] at e1
  generalize 1 / (2 : ℝ) ^ f.prec = u at *
  generalize (2 : ℝ) ^ f.emin = w at *
  linarith

/-- The axes of the coordinates turn exactly. -/
example : axesQuat .double ⟨.fin false 1, .fin false 0, .fin false 0⟩ ⟨.fin false 0, .fin false 1, .fin false 0⟩ ⟨.fin false 0, .fin false 0, .fin false 1⟩ =
    quatIdentity := by decide +kernel

/-- A third of a turn about the diagonal, by the branch without a positive trace. -/
example : axesQuat .single ⟨.fin false 0, .fin false 1, .fin false 0⟩ ⟨.fin false 0, .fin false 0, .fin false 1⟩ ⟨.fin false 1, .fin false 0, .fin false 0⟩ =
    ⟨.fin false (1 / 2), .fin false (1 / 2), .fin false (1 / 2), .fin false (1 / 2)⟩ := by decide +kernel

/-- Half turns about each axis, one for each entry of the diagonal. -/
example : axesQuat .double ⟨.fin false 1, .fin false 0, .fin false 0⟩ ⟨.fin false 0, .fin true 1, .fin false 0⟩ ⟨.fin false 0, .fin false 0, .fin true 1⟩ =
      ⟨.fin false 0, .fin false 1, .fin false 0, .fin false 0⟩ ∧
    axesQuat .double ⟨.fin true 1, .fin false 0, .fin false 0⟩ ⟨.fin false 0, .fin false 1, .fin false 0⟩ ⟨.fin false 0, .fin false 0, .fin true 1⟩ =
      ⟨.fin false 0, .fin false 0, .fin false 1, .fin false 0⟩ ∧
    axesQuat .double ⟨.fin true 1, .fin false 0, .fin false 0⟩ ⟨.fin false 0, .fin true 1, .fin false 0⟩ ⟨.fin false 0, .fin false 0, .fin false 1⟩ =
      ⟨.fin false 0, .fin false 0, .fin false 0, .fin false 1⟩ := by decide +kernel

/-- The frame `( 3/5, 4/5, 0 )`, `( -4/5, 3/5, 0 )`, `( 0, 0, 1 )`, rounded, meets the hypotheses for an error of `1 / 10000000`. -/
theorem rounded_frame (f : Fmt) (hf : f = .double ∨ f = .single) :
    ∃ x y z X' Y' Z', StandsVec f x X' ∧ StandsVec f y Y' ∧ StandsVec f z Z' ∧
      RightHanded (quatOf 0 (3 / 5) (4 / 5) 0) (quatOf 0 (-(4 / 5)) (3 / 5) 0) axisK ∧
      ‖X' - quatOf 0 (3 / 5) (4 / 5) 0‖ ≤ 1 / 5000000 ∧ ‖Y' - quatOf 0 (-(4 / 5)) (3 / 5) 0‖ ≤ 1 / 5000000 ∧ ‖Z' - axisK‖ ≤ 1 / 5000000 := by
  obtain ⟨hu0, hu, hn0, hn', hM⟩ := real_consts hf
  have hsm := emin_small hf
  have key : ∀ q : ℚ, |q| ≤ 1 → ∃ v r, StandsReal f v r ∧ |r - q| ≤ 1 / 10000000 := by
    intro q hq
    refine ⟨f.result false q, _, ⟨_, result_stands hf false (hq.trans ?_), rfl⟩, ?_⟩
    · linarith [(fmt_consts hf).2.2.2, (by norm_num : (1 : ℚ) ≤ 2 ^ 100)]
    · have e := srnd_err (f := f) q
      have e' : ((|f.srnd q - q| : ℚ) : ℝ) ≤ ((|q| / 2 ^ f.prec + 2 ^ f.emin / 2 : ℚ) : ℝ) := by exact_mod_cast e
      have hq' : |(q : ℝ)| ≤ 1 := by exact_mod_cast hq
      push_cast at e'
      rw [div_eq_mul_one_div] at e'
      have := mul_le_mul_of_nonneg_right hq' hu0.le
      linarith
  obtain ⟨v1, r1, s1, e1⟩ := key (3 / 5) (by rw [abs_le]; norm_num)
  obtain ⟨v2, r2, s2, e2⟩ := key (4 / 5) (by rw [abs_le]; norm_num)
  obtain ⟨v3, r3, s3, e3⟩ := key (-(4 / 5)) (by rw [abs_le]; norm_num)
  push_cast at e1 e2 e3
  have z0 : StandsReal f (.fin false 0) 0 := ⟨0, zero_stands f hf false, by simp⟩
  have o1 : StandsReal f (.fin false 1) 1 := ⟨1, one_stands hf, by simp⟩
  have unit : ∀ W : ℍ[ℝ], ‖W‖ ^ 2 = 1 → ‖W‖ = 1 := fun W h => (pow_eq_one_iff_of_nonneg (norm_nonneg _) (by norm_num)).1 h
  refine ⟨⟨v1, v2, .fin false 0⟩, ⟨v3, v1, .fin false 0⟩, ⟨.fin false 0, .fin false 0, .fin false 1⟩, quatOf 0 r1 r2 0, quatOf 0 r3 r1 0, axisK,
    ⟨rfl, s1, s2, z0⟩, ⟨rfl, s3, s1, z0⟩, ⟨rfl, z0, z0, o1⟩, ⟨⟨rfl, rfl, rfl⟩, ⟨unit _ ?_, unit _ ?_⟩, ?_⟩, ?_, ?_, ?_⟩
  · rw [norm_sq4]; norm_num
  · rw [norm_sq4]; norm_num
  · rw [axisK_eq]; ext <;> simp <;> norm_num
  · refine (norm_le4 (E := 1 / 10000000) ?_ ?_ ?_ ?_).trans (by norm_num) <;> simp <;> first | exact e1 | exact e2 | norm_num
    · simpa using e1
    · simpa using e2
  · refine (norm_le4 (E := 1 / 10000000) ?_ ?_ ?_ ?_).trans (by norm_num) <;> simp <;> first | exact e3 | exact e1 | norm_num
    · simpa using e3
    · simpa using e1
  · rw [sub_self, norm_zero]; norm_num

/-! ## What does not hold -/

theorem stands_unique {f : Fmt} {x : Flt} {a b : ℝ} (ha : StandsReal f x a) (hb : StandsReal f x b) : a = b := by
  obtain ⟨p, sp, rfl⟩ := ha
  obtain ⟨q, sq, rfl⟩ := hb
  have := sp.2.symm.trans sq.2
  have : p = q := by simpa using this
  rw [this]

/-- Axes at right angles of length one that turn to the left are not refused: what they give does not have length one. -/
theorem C154_left_refuted : ¬ ∀ (x y z : Vec3 Flt) (X Y Z : ℍ[ℝ]), StandsVec .double x X → StandsVec .double y Y → StandsVec .double z Z →
    ‖X‖ = 1 → ‖Y‖ = 1 → X * Y = -Z → ∃ Q, StandsQuat .double (axesQuat .double x y z) Q ∧ |‖Q‖ - 1| ≤ 1 / 10 := by
  intro h
  have hf : Fmt.double = .double ∨ Fmt.double = .single := .inl rfl
  have z0 : StandsReal .double (.fin false 0) 0 := ⟨0, zero_stands _ hf false, by simp⟩
  have o1 : StandsReal .double (.fin false 1) 1 := ⟨1, one_stands hf, by simp⟩
  have m1 : StandsReal .double (.fin true 1) (-1) := ⟨-1, neg_stands (one_stands hf), by simp⟩
  have unit : ∀ W : ℍ[ℝ], ‖W‖ ^ 2 = 1 → ‖W‖ = 1 := fun W h => (pow_eq_one_iff_of_nonneg (norm_nonneg _) (by norm_num)).1 h
  obtain ⟨Q, ⟨hw, hx, hy, hz⟩, hn⟩ := h ⟨.fin true 1, .fin false 0, .fin false 0⟩ ⟨.fin false 0, .fin true 1, .fin false 0⟩
    ⟨.fin false 0, .fin false 0, .fin true 1⟩ (quatOf 0 (-1) 0 0) (quatOf 0 0 (-1) 0) (quatOf 0 0 0 (-1)) ⟨rfl, m1, z0, z0⟩ ⟨rfl, z0, m1, z0⟩
    ⟨rfl, z0, z0, m1⟩ (unit _ (by rw [norm_sq4]; norm_num)) (unit _ (by rw [norm_sq4]; norm_num)) (by ext <;> simp)
  have e : axesQuat .double ⟨.fin true 1, .fin false 0, .fin false 0⟩ ⟨.fin false 0, .fin true 1, .fin false 0⟩ ⟨.fin false 0, .fin false 0, .fin true 1⟩ =
    ⟨.fin false 0, .fin false (Fmt.double.rndRoot 2 / 2), .fin false 0, .fin false 0⟩ := by decide +kernel
  rw [e] at hw hx hy hz
  have r0 := stands_unique hw z0
  have r2 := stands_unique hy z0
  have r3 := stands_unique hz z0
  obtain ⟨p, sp, hp⟩ := hx
  have e1 : p = Fmt.double.rndRoot 2 / 2 := by simpa [Flt.pos] using sp.2.symm
  have c1 : 0 ≤ Fmt.double.rndRoot 2 / 2 := by decide +kernel
  have c2 : Fmt.double.rndRoot 2 / 2 ≤ 3 / 4 := by decide +kernel
  rw [← e1] at c1 c2
  have c1 : (0 : ℝ) ≤ p := by exact_mod_cast c1
  have c2 : (p : ℝ) ≤ ((3 / 4 : ℚ) : ℝ) := by exact_mod_cast c2
  push_cast at c2
  have n := norm_sq4 Q
  rw [r0, r2, r3, hp] at n
  have := abs_le.1 hn
  nlinarith

/-- Axes at right angles of equal length other than one are not refused or scaled: the assertion is commented out. -/
theorem C154_unchecked : axesQuat .double ⟨.fin false 0, .fin false 0, .fin false 0⟩ ⟨.fin false 0, .fin false 0, .fin false 0⟩
      ⟨.fin false 0, .fin false 0, .fin false 0⟩ = ⟨.fin false 0, .fin false (1 / 2), .fin false 0, .fin false 0⟩ ∧
    axesQuat .double ⟨.fin false 5, .fin false 0, .fin false 0⟩ ⟨.fin false 0, .fin false 5, .fin false 0⟩
      ⟨.fin false 0, .fin false 0, .fin false 5⟩ = ⟨.fin false 2, .fin false 0, .fin false 0, .fin false 0⟩ := by decide +kernel

end Flut
