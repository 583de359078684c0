import Verif.Proofs.FloatEuler

/-! # C155: quaternions from an axis and an angle and from Euler angles, in floating-point arithmetic -/

namespace Flut

open Spec FloatMath Quaternion

/-- The length of a vector that `is_normalized` accepts. -/
theorem accepted_length {f : Fmt} (hf : f = .double ∨ f = .single) {v : Vec3 Flt} {A : ℍ[ℝ]} (hA : StandsVec f v A) (hb : ‖A‖ ^ 2 ≤ f.maxVal / 2)
    (h : isNormalized f v = true) : |‖A‖ - 1| ≤ 61 / 10 * (1 / 2 ^ f.prec) := by
  obtain ⟨hu0, hu, hn0, hn', hM⟩ := real_consts hf
  obtain ⟨h0, ⟨a, sa, ea⟩, ⟨b, sb, eb⟩, ⟨c, sc, ec⟩⟩ := hA
  have n := norm_sq4 A
  rw [h0, ea, eb, ec] at n
  have hb' : a ^ 2 + b ^ 2 + c ^ 2 ≤ f.maxVal / 2 := by
    have : ((a ^ 2 + b ^ 2 + c ^ 2 : ℚ) : ℝ) ≤ ((f.maxVal / 2 : ℚ) : ℝ) := by push_cast; linarith
    exact_mod_cast this
  have k := (C112_is_normalized f hf v a b c sa sb sc hb').2
  have k' : |a ^ 2 + b ^ 2 + c ^ 2 - 1| < 12 / 2 ^ f.prec := by
    by_contra hc
    rw [k (not_lt.1 hc)] at h
    cases h
  have k2 : |‖A‖ ^ 2 - 1| ≤ 12 * (1 / 2 ^ f.prec) := by
    have : ((|a ^ 2 + b ^ 2 + c ^ 2 - 1| : ℚ) : ℝ) < ((12 / 2 ^ f.prec : ℚ) : ℝ) := by exact_mod_cast k'
    push_cast at this
    rw [n, show (0 : ℝ) ^ 2 + a ^ 2 + b ^ 2 + c ^ 2 - 1 = a ^ 2 + b ^ 2 + c ^ 2 - 1 by ring, show (12 : ℝ) * (1 / 2 ^ f.prec) = 12 / 2 ^ f.prec by ring]
    exact this.le
  have hn := norm_nonneg A
  generalize ‖A‖ = r at *
  generalize (1 / 2 ^ f.prec : ℝ) = u at *
  obtain ⟨k3, k4⟩ := abs_le.1 k2
  rw [abs_le]
  constructor <;> nlinarith

/-- One component of the axis, times the sine. -/
theorem axis_component {f : Fmt} (hf : f = .double ∨ f = .single) {x y : Flt} {s a S A r E : ℝ} (hx : StandsReal f x s) (hy : StandsReal f y a)
    (hs : |s - S| ≤ E) (hs1 : |s| ≤ 1001 / 1000) (ha : |a| ≤ r) (hr : |r - 1| ≤ 61 / 10 * (1 / 2 ^ f.prec)) (hA : A = a / r) (hS : |S| ≤ 1) :
    ∃ p, StandsReal f (f.mul x y) p ∧ |p - S * A| ≤ 1001 / 1000 * E + 72 / 10 * (1 / 2 ^ f.prec) := by
  obtain ⟨hu0, hu, hn0, hn', hM⟩ := real_consts hf
  have hsm := emin_small hf
  have hM1 : (100 : ℝ) ≤ f.maxVal := le_trans (by norm_num) hM
  have hE : 0 ≤ E := (abs_nonneg _).trans hs
  obtain ⟨r1, r2⟩ := abs_le.1 hr
  have r0 : 0 < r := by linarith
  have hr' : r ≤ 1001 / 1000 := by linarith
  have hp : |s * a| ≤ 1003 / 1000 := by
    rw [abs_mul]
    exact (mul_le_mul hs1 (ha.trans hr') (abs_nonneg _) (by norm_num)).trans (by norm_num)
  obtain ⟨p, sp, ep⟩ := mul_real hf hx hy (by linarith)
  refine ⟨p, sp, ?_⟩
  have e1 : |p - s * a| ≤ 1005 / 1000 * (1 / 2 ^ f.prec) := by
    have := mul_le_mul_of_nonneg_left hp hu0.le
    linarith
  have e2 : |s * a - S * a| ≤ E * (1001 / 1000) := by
    rw [← sub_mul, abs_mul]
    exact mul_le_mul hs (ha.trans hr') (abs_nonneg _) hE
  have e3 : |S * a - S * A| ≤ 61 / 10 * (1 / 2 ^ f.prec) := by
    have : a - A = A * (r - 1) := by rw [hA]; field_simp
    rw [← mul_sub, abs_mul, this, abs_mul]
    have hA1 : |A| ≤ 1 := by rw [hA, abs_div, abs_of_pos r0]; exact (div_le_one r0).2 ha
    calc |S| * (|A| * |r - 1|) ≤ 1 * (1 * |r - 1|) := by
          gcongr
      _ ≤ _ := by linarith
  have t1 := abs_sub_le p (s * a) (S * A)
  have t2 := abs_sub_le (s * a) (S * a) (S * A)
  linarith

/-- A value of the format near a real number. -/
theorem near_value {f : Fmt} (hf : f = .double ∨ f = .single) {r : ℝ} (hr : |r| ≤ 4) : ∃ y s, StandsReal f y s ∧ |s - r| ≤ 8 * (1 / 2 ^ f.prec) := by
  obtain ⟨hu0, hu, hn0, hn', hM⟩ := real_consts hf
  have hsm := emin_small hf
  obtain ⟨q, h1, h2⟩ := exists_rat_btwn (show r < r + 1 / 2 ^ f.prec by linarith)
  have hq : |(q : ℝ)| ≤ 5 := by rw [abs_le] at hr ⊢; constructor <;> linarith
  have hb : |q| ≤ f.maxVal := by
    have : ((|q| : ℚ) : ℝ) ≤ f.maxVal := by push_cast; linarith
    exact_mod_cast this
  refine ⟨_, _, ⟨_, result_stands hf false hb, rfl⟩, ?_⟩
  have e : ((|f.srnd q - q| : ℚ) : ℝ) ≤ ((|q| / 2 ^ f.prec + 2 ^ f.emin / 2 : ℚ) : ℝ) := by exact_mod_cast srnd_err (f := f) q
  push_cast at e
  have e2 : |(q : ℝ)| / 2 ^ f.prec ≤ 5 * (1 / 2 ^ f.prec) := by
    rw [div_eq_mul_one_div]; exact mul_le_mul_of_nonneg_right hq hu0.le
  have e3 : |(q : ℝ) - r| ≤ 1 / 2 ^ f.prec := by rw [abs_le]; constructor <;> linarith
  have := abs_sub_le ((f.srnd q : ℚ) : ℝ) q r
  linarith

/-- There are functions as accurate as required. -/
theorem accurate_exists {f : Fmt} (hf : f = .double ∨ f = .single) : ∃ L, Accurate f 8 L := by
  have key : ∀ (g : ℝ → ℝ), (∀ a, |g a| ≤ 4) → ∀ x, ∃ y, ∀ a, StandsReal f x a → ∃ s, StandsReal f y s ∧ |s - g a| ≤ 8 * (1 / 2 ^ f.prec) := by
    intro g hg x
    by_cases h : ∃ a, StandsReal f x a
    · obtain ⟨a, ha⟩ := h
      obtain ⟨y, s, sy, e⟩ := near_value hf (hg a)
      exact ⟨y, fun b hb => ⟨s, sy, by rw [← stands_unique ha hb]; exact e⟩⟩
    · exact ⟨.nan false, fun a ha => (h ⟨a, ha⟩).elim⟩
  choose sin hsin using key Real.sin (fun a => (Real.abs_sin_le_one a).trans (by norm_num))
  choose cos hcos using key Real.cos (fun a => (Real.abs_cos_le_one a).trans (by norm_num))
  choose acos hacos using key Real.arccos (fun a => by
    rw [abs_of_nonneg (Real.arccos_nonneg a)]; exact (Real.arccos_le_pi a).trans Real.pi_le_four)
  classical
  refine ⟨⟨sin, cos, fun x => if ∃ a, StandsReal f x a ∧ 1 < |a| then .nan false else acos x⟩, hsin, hcos, fun x a ha h => ?_, fun x a ha h => ?_⟩
  · have : ¬ ∃ a, StandsReal f x a ∧ 1 < |a| := by
      rintro ⟨b, hb, hl⟩
      rw [stands_unique hb ha] at hl
      linarith
    simp only [this, if_false]
    exact hacos x a ha
  · exact if_pos ⟨a, ha, h⟩

/-- The quaternion of an accepted axis. -/
theorem axisAngle_close {f : Fmt} (hf : f = .double ∨ f = .single) {L : Libm} {k : ℝ} (hL : Accurate f k L) (hk : k / 2 ^ f.prec ≤ 1 / 1000)
    {axis : Vec3 Flt} {A : ℍ[ℝ]} (hA : StandsVec f axis A) (hb : ‖A‖ ^ 2 ≤ f.maxVal / 2) (u : AngleUnit) {x : Flt} {a : ℝ} (hx : StandsReal f x a)
    (h : isNormalized f axis = true) : ∃ q Q, axisAngleQuat f L axis u x = .ok q ∧ StandsQuat f q Q ∧ (‖A‖⁻¹ • A).re = 0 ∧ ‖‖A‖⁻¹ • A‖ = 1 ∧
      ‖Q - axisQuat (‖A‖⁻¹ • A) (exactAngle u a)‖ ≤ (21 / 10 * k + 15 + (if u = .degrees then 14 * |exactAngle u a| else 0)) / 2 ^ f.prec := by
  obtain ⟨hu0, hu, hn0, hn', hM⟩ := real_consts hf
  have hl := accepted_length hf hA hb h
  obtain ⟨l1, l2⟩ := abs_le.1 hl
  have r0 : 0 < ‖A‖ := by linarith
  obtain ⟨h0, sx, sy, sz⟩ := hA
  obtain ⟨c, s, sc, ss, ec, es, nc, ns, _, kc, _⟩ := trig_close hf hL u hx
  have k0 : 0 ≤ k * (1 / 2 ^ f.prec) := (abs_nonneg _).trans kc
  have hk' : k * (1 / 2 ^ f.prec) ≤ 1 / 1000 := by rwa [mul_one_div]
  have ns' : |s| ≤ 1001 / 1000 := by linarith
  have u0 := unitErr_nonneg u a
  have E0 : 0 ≤ (k + unitErr u a / 2 + 2 / 1000) * (1 / 2 ^ f.prec) := (abs_nonneg _).trans ec
  have hS := Real.abs_sin_le_one (exactAngle u a / 2)
  obtain ⟨_, ax, ay, az⟩ := abs_le_norm A
  set B : ℍ[ℝ] := ‖A‖⁻¹ • A with hB
  have cx := axis_component hf ss sx es ns' ax hl (A := B.imI) (by rw [hB]; simp [div_eq_inv_mul]) hS
  have cy := axis_component hf ss sy es ns' ay hl (A := B.imJ) (by rw [hB]; simp [div_eq_inv_mul]) hS
  have cz := axis_component hf ss sz es ns' az hl (A := B.imK) (by rw [hB]; simp [div_eq_inv_mul]) hS
  have cc : ∃ q, StandsReal f (L.cos (f.mul (.fin false (1 / 2)) (radValue f u x))) q ∧ |q - Real.cos (exactAngle u a / 2)| ≤
      1001 / 1000 * ((k + unitErr u a / 2 + 2 / 1000) * (1 / 2 ^ f.prec)) + 72 / 10 * (1 / 2 ^ f.prec) := ⟨c, sc, by linarith⟩
  obtain ⟨Q, sQ, eQ⟩ := quat_close (E := 1001 / 1000 * ((k + unitErr u a / 2 + 2 / 1000) * (1 / 2 ^ f.prec)) + 72 / 10 * (1 / 2 ^ f.prec))
    cc cx cy cz
  refine ⟨_, Q, by simp only [axisAngleQuat, h, if_true], sQ, ?_, ?_, eQ.trans ?_⟩
  · rw [hB]; simp [h0]
  · rw [hB, norm_smul, norm_inv, norm_norm, inv_mul_cancel₀ r0.ne']
  · have hd : unitErr u a * (1 / 2 ^ f.prec) * (1001 / 1000) ≤ (if u = .degrees then 14 * |exactAngle u a| else 0) * (1 / 2 ^ f.prec) := by
      unfold unitErr
      split_ifs
      · have : 0 ≤ |exactAngle u a| * (1 / 2 ^ f.prec) := by positivity
        nlinarith
      · simp
    rw [← mul_one_div (21 / 10 * k + 15 + _)]
    nlinarith

/-- From an axis and an angle: an axis that is not accepted as normalised is refused. For the others the quaternion is close to the one of
the rotation by the angle about the direction of the axis. -/
theorem C155_axis_angle (f : Fmt) (hf : f = .double ∨ f = .single) (L : Libm) (k : ℝ) (hL : Accurate f k L) (hk : k / 2 ^ f.prec ≤ 1 / 1000)
    (axis : Vec3 Flt) (A : ℍ[ℝ]) (hA : StandsVec f axis A) (hb : ‖A‖ ^ 2 ≤ f.maxVal / 2) (u : AngleUnit) (x : Flt) (a : ℝ) (hx : StandsReal f x a) :
    (isNormalized f axis = false → axisAngleQuat f L axis u x = .throws .assertion) ∧
    (isNormalized f axis = true → ∃ q Q P, axisAngleQuat f L axis u x = .ok q ∧ StandsQuat f q Q ∧ RotatesBy P (‖A‖⁻¹ • A) (exactAngle u a) ∧
      ‖Q - P‖ ≤ (21 / 10 * k + 15 + (if u = .degrees then 14 * |exactAngle u a| else 0)) / 2 ^ f.prec) := by
  refine ⟨fun h => by simp [axisAngleQuat, h], fun h => ?_⟩
  obtain ⟨q, Q, e, sQ, h0, h1, eQ⟩ := axisAngle_close hf hL hk hA hb u hx h
  exact ⟨q, Q, _, e, sQ, axisQuat_rotates h0 h1 _, eQ⟩

/-- A quarter of a turn about the last axis, in degrees. -/
example : ∃ L, Accurate .double 8 L ∧ ∃ q Q P, axisAngleQuat .double L ⟨.fin false 0, .fin false 0, .fin false 1⟩ .degrees (.fin false 90) = .ok q ∧
    StandsQuat .double q Q ∧ RotatesBy P axisK (90 * (Real.pi / 180)) ∧ ‖Q - P‖ ≤ 54 / 2 ^ 53 := by
  have hd : Fmt.double = .double ∨ Fmt.double = .single := .inl rfl
  obtain ⟨L, hL⟩ := accurate_exists hd
  have z0 : StandsReal .double (.fin false 0) 0 := ⟨0, zero_stands _ hd false, by norm_num⟩
  have o1 : StandsReal .double (.fin false 1) 1 := ⟨1, one_stands hd, by norm_num⟩
  have n90 : StandsReal .double (.fin false 90) 90 := ⟨90, by simpa using stands_double false (n := 90) (e := 0) (by norm_num) (by norm_num), by norm_num⟩
  have hM := (real_consts hd).2.2.2.2
  have hb : ‖axisK‖ ^ 2 ≤ Fmt.double.maxVal / 2 := by
    rw [axisK_unit.2]
    linarith [(by norm_num : (2 : ℝ) ≤ 10 ^ 30)]
  obtain ⟨q, Q, P, e, sQ, r, h⟩ := (C155_axis_angle .double hd L 8 hL (by norm_num [Fmt.double]) ⟨.fin false 0, .fin false 0, .fin false 1⟩ axisK
    ⟨rfl, z0, z0, o1⟩ hb .degrees _ 90 n90).2 (by decide +kernel)
  rw [axisK_unit.2, inv_one, one_smul] at r
  refine ⟨L, hL, q, Q, P, e, sQ, r, h.trans ?_⟩
  rw [if_pos rfl, show Fmt.double.prec = 53 from rfl]
  gcongr
  have := Real.pi_lt_d2
  have : |exactAngle .degrees 90| ≤ 1575 / 1000 := by
    rw [exactAngle, abs_of_pos (by have := Real.pi_pos; positivity)]; linarith
  linarith

/-- The quaternion of a turn about one of the axes of the coordinates. -/
theorem turn_close {c s S C h η E : ℝ} {Q : ℍ[ℝ]} {P : ℍ[ℝ]} (hk : η ≤ 1 / 1000) (hc : |c - C| ≤ E) (hs : |s - S| ≤ E) (kc : |c - Real.cos h| ≤ η)
    (ks : |s - Real.sin h| ≤ η) (hQ : Q = quatOf c s 0 0 ∧ P = quatOf C S 0 0 ∨ Q = quatOf c 0 s 0 ∧ P = quatOf C 0 S 0 ∨ Q = quatOf c 0 0 s ∧ P = quatOf C 0 0 S) :
    ‖Q‖ ≤ 1002 / 1000 ∧ ‖Q - P‖ ≤ 2 * E := by
  have h0 : 0 ≤ E := (abs_nonneg _).trans hc
  constructor
  · refine (norm_two ?_ kc ks).trans (by linarith)
    rw [norm_sq4]
    rcases hQ with ⟨rfl, _⟩ | ⟨rfl, _⟩ | ⟨rfl, _⟩ <;> simp
  · rcases hQ with ⟨rfl, rfl⟩ | ⟨rfl, rfl⟩ | ⟨rfl, rfl⟩ <;> apply norm_le4 <;> simpa

/-- From Euler angles: the quaternion is close to the product, in the given order, of the rotations about the axes of the coordinates. -/
theorem C155_euler (f : Fmt) (hf : f = .double ∨ f = .single) (L : Libm) (k : ℝ) (hL : Accurate f k L) (hk : k / 2 ^ f.prec ≤ 1 / 1000) (u : AngleUnit)
    (x y z : Flt) (a b c : ℝ) (hx : StandsReal f x a) (hy : StandsReal f y b) (hz : StandsReal f z c) (eo : EulerOrder) :
    ∃ Q X Y Z, StandsQuat f (eulerQuat f L u x y z eo) Q ∧
      RotatesBy X axisI (exactAngle u a) ∧ RotatesBy Y axisJ (exactAngle u b) ∧ RotatesBy Z axisK (exactAngle u c) ∧
      ‖Q - turnsInOrder X Y Z eo‖ ≤
        (61 / 10 * k + 20 + (if u = .degrees then 14 * (|exactAngle u a| + |exactAngle u b| + |exactAngle u c|) else 0)) / 2 ^ f.prec := by
  obtain ⟨hu0, hu, hn0, hn', hM⟩ := real_consts hf
  obtain ⟨cx, sx, scx, ssx, ecx, esx, _, _, hx', kcx, ksx⟩ := trig_close hf hL u hx
  obtain ⟨cy, sy, scy, ssy, ecy, esy, _, _, hy', kcy, ksy⟩ := trig_close hf hL u hy
  obtain ⟨cz, sz, scz, ssz, ecz, esz, _, _, hz', kcz, ksz⟩ := trig_close hf hL u hz
  have hk' : k * (1 / 2 ^ f.prec) ≤ 1 / 1000 := by rwa [mul_one_div]
  have k0 : 0 ≤ k * (1 / 2 ^ f.prec) := (abs_nonneg _).trans kcx
  have z0 : StandsReal f (.fin false 0) 0 := ⟨0, zero_stands f hf false, by norm_num⟩
  obtain ⟨nX, eX⟩ := turn_close (Q := quatOf cx sx 0 0) hk' ecx esx kcx ksx (.inl ⟨rfl, rfl⟩)
  obtain ⟨nY, eY⟩ := turn_close (Q := quatOf cy 0 sy 0) hk' ecy esy kcy ksy (.inr (.inl ⟨rfl, rfl⟩))
  obtain ⟨nZ, eZ⟩ := turn_close (Q := quatOf cz 0 0 sz) hk' ecz esz kcz ksz (.inr (.inr ⟨rfl, rfl⟩))
  rw [← axisQuat_I] at eX
  rw [← axisQuat_J] at eY
  rw [← axisQuat_K] at eZ
  have rX := axisQuat_rotates axisI_unit.1 axisI_unit.2 (exactAngle u a)
  have rY := axisQuat_rotates axisJ_unit.1 axisJ_unit.2 (exactAngle u b)
  have rZ := axisQuat_rotates axisK_unit.1 axisK_unit.2 (exactAngle u c)
  have tX : StandsQuat f ⟨_, _, _, _⟩ (quatOf cx sx 0 0) := ⟨scx, ssx, z0, z0⟩
  have tY : StandsQuat f ⟨_, _, _, _⟩ (quatOf cy 0 sy 0) := ⟨scy, z0, ssy, z0⟩
  have tZ : StandsQuat f ⟨_, _, _, _⟩ (quatOf cz 0 0 sz) := ⟨scz, z0, z0, ssz⟩
  have fin : ∀ e : ℝ, e = 101 / 100 * (2 * ((k + unitErr u a / 2 + 2 / 1000) * (1 / 2 ^ f.prec)) + 2 * ((k + unitErr u b / 2 + 2 / 1000) * (1 / 2 ^ f.prec)) +
      2 * ((k + unitErr u c / 2 + 2 / 1000) * (1 / 2 ^ f.prec))) + 19 * (1 / 2 ^ f.prec) →
      e ≤ (61 / 10 * k + 20 + (if u = .degrees then 14 * (|exactAngle u a| + |exactAngle u b| + |exactAngle u c|) else 0)) / 2 ^ f.prec := by
    rintro _ rfl
    have hd : (unitErr u a + unitErr u b + unitErr u c) * (1 / 2 ^ f.prec) * (101 / 100) ≤
        (if u = .degrees then 14 * (|exactAngle u a| + |exactAngle u b| + |exactAngle u c|) else 0) * (1 / 2 ^ f.prec) := by
      unfold unitErr
      split_ifs
      · have : 0 ≤ (|exactAngle u a| + |exactAngle u b| + |exactAngle u c|) * (1 / 2 ^ f.prec) := by positivity
        nlinarith
      · simp
    rw [← mul_one_div (61 / 10 * k + 20 + _)]
    nlinarith
  cases eo with
  | xyz =>
    obtain ⟨R, sR, eR⟩ := triple_close hf tX tY tZ nX nY nZ rX.unit rY.unit eX eY eZ
    exact ⟨R, _, _, _, sR, rX, rY, rZ, eR.trans (fin _ (by ring))⟩
  | xzy =>
    obtain ⟨R, sR, eR⟩ := triple_close hf tX tZ tY nX nZ nY rX.unit rZ.unit eX eZ eY
    exact ⟨R, _, _, _, sR, rX, rY, rZ, eR.trans (fin _ (by ring))⟩
  | yxz =>
    obtain ⟨R, sR, eR⟩ := triple_close hf tY tX tZ nY nX nZ rY.unit rX.unit eY eX eZ
    exact ⟨R, _, _, _, sR, rX, rY, rZ, eR.trans (fin _ (by ring))⟩
  | yzx =>
    obtain ⟨R, sR, eR⟩ := triple_close hf tY tZ tX nY nZ nX rY.unit rZ.unit eY eZ eX
    exact ⟨R, _, _, _, sR, rX, rY, rZ, eR.trans (fin _ (by ring))⟩
  | zxy =>
    obtain ⟨R, sR, eR⟩ := triple_close hf tZ tX tY nZ nX nY rZ.unit rX.unit eZ eX eY
    exact ⟨R, _, _, _, sR, rX, rY, rZ, eR.trans (fin _ (by ring))⟩
  | zyx =>
    obtain ⟨R, sR, eR⟩ := triple_close hf tZ tY tX nZ nY nX rZ.unit rY.unit eZ eY eX
    exact ⟨R, _, _, _, sR, rX, rY, rZ, eR.trans (fin _ (by ring))⟩

/-- Three different angles, in `float`. -/
example : ∃ L, Accurate .single 8 L ∧ ∃ Q X Y Z, StandsQuat .single (eulerQuat .single L .radians (.fin false 1) (.fin false (1 / 2)) (.fin true 2) .zyx) Q ∧
    RotatesBy X axisI 1 ∧ RotatesBy Y axisJ (1 / 2) ∧ RotatesBy Z axisK (-2) ∧ ‖Q - Z * Y * X‖ ≤ 69 / 2 ^ 24 := by
  have hs : Fmt.single = .double ∨ Fmt.single = .single := .inr rfl
  obtain ⟨L, hL⟩ := accurate_exists hs
  have o1 : StandsReal .single (.fin false 1) 1 := ⟨1, one_stands hs, by norm_num⟩
  have o2 : StandsReal .single (.fin true 2) (-2) :=
    ⟨-2, ⟨⟨by norm_num, by decide +kernel, by simpa using pow_binary hs 1⟩, rfl⟩, by norm_num⟩
  obtain ⟨Q, X, Y, Z, sQ, rX, rY, rZ, h⟩ := C155_euler .single hs L 8 hL (by norm_num [Fmt.single]) .radians _ _ _ 1 (1 / 2) (-2) o1 (half_real hs) o2 .zyx
  refine ⟨L, hL, Q, X, Y, Z, sQ, rX, rY, rZ, h.trans ?_⟩
  rw [if_neg (by decide), show Fmt.single.prec = 24 from rfl]
  norm_num

end Flut
