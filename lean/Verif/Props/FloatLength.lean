import Verif.Proofs.FloatVec
import Verif.Props.FloatPoly

/-! # Property theorems: lengths in floating-point arithmetic (C111)

`Stands f x a` says that the finite value `x` of the format stands for the real number `a`. One unit is `1 / 2 ^ f.prec`, half the
distance from 1 to the next number.
-/

namespace Flut

open Spec FloatMath

/-! ## Roots -/

/-- `sqrt` gives the nearest number of the format, and the one with an even significand of two that are equally near. -/
theorem C111_root_nearest (f : Fmt) (hf : f = .double ∨ f = .single) (x : Flt) (q : ℚ) (hx : Stands f x q) (h : 0 < q) :
    ∃ r : ℚ, f.sqrt x = .fin false r ∧ Stands f (f.sqrt x) r ∧
      (∀ z, IsBinary f.prec f.emin z → |(r : ℝ) - √(q : ℝ)| ≤ |(z : ℝ) - √(q : ℝ)|) ∧
      |(r : ℝ) - √(q : ℝ)| ≤ √(q : ℝ) / 2 ^ f.prec := by
  obtain ⟨e, hs⟩ := sqrt_stands hf hx h
  refine ⟨_, e, hs, fun z hz => f.rndRoot_nearest h.le hz, f.rndRoot_rel hf ?_⟩
  obtain ⟨n, hn⟩ := binary_mul hx.binary
  have hp := Fmt.pow_pos f.emin
  rw [hn] at h ⊢
  have : (0 : ℚ) < n := (pos_iff_pos_of_mul_pos h).2 hp
  have : (1 : ℚ) ≤ n := by exact_mod_cast (show (0 : Int) < n by exact_mod_cast this)
  nlinarith

/-- If the root is a number of the format, it is what `sqrt` gives. -/
theorem C111_root_exact (f : Fmt) (hf : f = .double ∨ f = .single) (x : Flt) (a : ℚ) (ha : 0 < a) (hb : IsBinary f.prec f.emin a)
    (hx : Stands f x (a * a)) : f.sqrt x = .fin false a := by
  obtain ⟨r, e, _, h, _⟩ := C111_root_nearest f hf x (a * a) hx (by positivity)
  have h1 := h a hb
  have haR : (0 : ℝ) ≤ a := by exact_mod_cast ha.le
  have e1 : √((a * a : ℚ) : ℝ) = a := by push_cast; exact Real.sqrt_mul_self haR
  rw [e1, sub_self, abs_zero] at h1
  have h2 := sub_eq_zero.1 (abs_eq_zero.1 (le_antisymm h1 (abs_nonneg _)))
  rw [e]
  congr 1
  exact_mod_cast h2

/-- `invsqrt` is the inverse of the root to three units. -/
theorem C111_invsqrt (f : Fmt) (hf : f = .double ∨ f = .single) (x : Flt) (q : ℚ) (hx : Stands f x q) (h : 0 < q) :
    ∃ i : ℚ, Stands f (invsqrt f x) i ∧ |(i : ℝ) - 1 / √(q : ℝ)| ≤ 3 / 2 ^ f.prec * (1 / √(q : ℝ)) := by
  obtain ⟨r, e, hr, _, he⟩ := C111_root_nearest f hf x q hx h
  have hqR : (0 : ℝ) < q := by exact_mod_cast h
  have hs := Real.sqrt_pos.2 hqR
  have hss := Real.mul_self_sqrt hqR.le
  have hP := prec_real hf
  have hu : √(q : ℝ) / 2 ^ f.prec ≤ √(q : ℝ) / 16777216 := div_le_div_of_nonneg_left hs.le (by norm_num) hP
  have hb := abs_le.1 (he.trans hu)
  have hr0 : (0 : ℝ) < r := by linarith
  have hr0' : 0 < r := by exact_mod_cast hr0
  have hq1 : 2 ^ f.emin ≤ q := by
    obtain ⟨n, hn⟩ := binary_mul hx.binary
    have hp := Fmt.pow_pos f.emin
    rw [hn] at h ⊢
    have : (0 : ℚ) < n := (pos_iff_pos_of_mul_pos h).2 hp
    have : (1 : ℚ) ≤ n := by exact_mod_cast (show (0 : Int) < n by exact_mod_cast this)
    nlinarith
  have hq2 := (le_abs_self q).trans hx.abs_le
  have b1 : r * r ≤ 2 * f.maxVal := by
    have : (r : ℝ) * r ≤ 2 * q := by nlinarith
    have : ((r * r : ℚ) : ℝ) ≤ ((2 * q : ℚ) : ℝ) := by push_cast; exact this
    have : r * r ≤ 2 * q := by exact_mod_cast this
    linarith
  have b2 : 2 ^ f.emin / 4 ≤ r * r := by
    have : (q : ℝ) / 4 ≤ r * r := by nlinarith
    have : ((q / 4 : ℚ) : ℝ) ≤ ((r * r : ℚ) : ℝ) := by push_cast; exact this
    have : q / 4 ≤ r * r := by exact_mod_cast this
    linarith
  obtain ⟨i, hi, h1⟩ := inv_close hf hr hr0' (k := 1) (L := √(q : ℝ)) b1 b2 hs (by norm_num) (by norm_num) (by linarith)
  refine ⟨i, ?_, h1.trans ?_⟩
  · exact hi
  · have e (s : ℝ) : 3 / 2 ^ f.prec * s = 3 * (s / 2 ^ f.prec) := by ring
    rw [e]
    exact mul_le_mul_of_nonneg_right (by norm_num) (by positivity)

/-- `signed_sqrt` of the negative is the negative. -/
theorem C111_signed_root (f : Fmt) (x : Flt) (hx : IsFloat f x) (hn : IsNumber x) :
    signedSqrt f x.neg = (signedSqrt f x).neg ∧
    ((Flt.fin false 0).le x = true → signedSqrt f x = f.sqrt x) := by
  refine ⟨?_, fun h => by simp [signedSqrt, h]⟩
  rcases x with ⟨s, m⟩ | s | s
  · by_cases h0 : m = 0
    · subst h0
      cases s <;> simp [signedSqrt, Flt.neg, Flt.le, Fmt.sqrt]
    · have hm : 0 < m := lt_of_le_of_ne hx.1 (Ne.symm h0)
      cases s <;> simp [signedSqrt, Flt.neg, Flt.le, hm.le, not_le.2 hm, Fmt.sqrt, h0]
  · cases s <;> rfl
  · obtain ⟨p, hp⟩ := hn; cases hp

/-! ## Vectors -/

theorem maxVal_pos {f : Fmt} (hf : f = .double ∨ f = .single) : 0 < f.maxVal := by
  linarith [(fmt_consts hf).2.2.2, (by positivity : (0 : ℚ) < 2 ^ 100)]

/-- The sum of three products. -/
theorem sum3_acc {f : Fmt} (hf : f = .double ∨ f = .single) {x y z x' y' z' : Flt} {a b c a' b' c' : ℚ} (hx : Stands f x a)
    (hy : Stands f y b) (hz : Stands f z c) (hx' : Stands f x' a') (hy' : Stands f y' b') (hz' : Stands f z' c')
    (h : |a * a'| + |b * b'| + |c * c'| ≤ f.maxVal / 2) :
    ∃ r, Acc f (3002 / 1000) 3 (f.add (f.add (f.mul x x') (f.mul y y')) (f.mul z z')) r (a * a' + b * b' + c * c')
      (|a * a'| + |b * b'| + |c * c'|) := by
  have h1 := abs_nonneg (a * a')
  have h2 := abs_nonneg (b * b')
  have h3 := abs_nonneg (c * c')
  have A := (mul_term hf hx hx' (by linarith)).acc
  have B := A.step hf (mul_term hf hy hy' (by linarith)) (by linarith) (by norm_num) (by norm_num) (by norm_num) (by norm_num)
  have C := B.step hf (mul_term hf hz hz' (by linarith)) (by linarith) (by norm_num) (by norm_num) (by norm_num) (by norm_num)
  norm_num at C
  exact ⟨_, by convert C using 1 <;> norm_num⟩

/-- The squared length is right to four units, and the smallest numbers. -/
theorem C111_squared_length (f : Fmt) (hf : f = .double ∨ f = .single) (v : Vec3 Flt) (a b c : ℚ) (hx : Stands f v.x a)
    (hy : Stands f v.y b) (hz : Stands f v.z c) (h : a ^ 2 + b ^ 2 + c ^ 2 ≤ f.maxVal / 2) :
    ∃ r, Stands f (squaredLength f v) r ∧
      |r - (a ^ 2 + b ^ 2 + c ^ 2)| ≤ 4 / 2 ^ f.prec * (a ^ 2 + b ^ 2 + c ^ 2) + 3 * 2 ^ f.emin := by
  have e : |a * a| + |b * b| + |c * c| = a ^ 2 + b ^ 2 + c ^ 2 := by
    rw [abs_mul_self, abs_mul_self, abs_mul_self]; ring
  obtain ⟨r, hr⟩ := sum3_acc hf hx hy hz hx hy hz (by rw [e]; exact h)
  refine ⟨r, hr.stands, ?_⟩
  have := hr.err
  rw [e, ← sq, ← sq, ← sq] at this
  refine this.trans ?_
  have : 0 ≤ (a ^ 2 + b ^ 2 + c ^ 2) / 2 ^ f.prec := by positivity
  have e' : 4 / 2 ^ f.prec * (a ^ 2 + b ^ 2 + c ^ 2) = 4 * ((a ^ 2 + b ^ 2 + c ^ 2) / 2 ^ f.prec) := by ring
  rw [e']
  linarith

/-- The computed length, and its error. -/
theorem length_err {f : Fmt} (hf : f = .double ∨ f = .single) {v : Vec3 Flt} {a b c : ℚ} (hx : Stands f v.x a)
    (hy : Stands f v.y b) (hz : Stands f v.z c) (h : a ^ 2 + b ^ 2 + c ^ 2 ≤ f.maxVal / 2)
    (h' : 2 ^ (f.prec + 10) * 2 ^ f.emin ≤ a ^ 2 + b ^ 2 + c ^ 2) :
    ∃ l : ℚ, length f v = .fin false l ∧ Stands f (length f v) l ∧
      |(l : ℝ) - √((a ^ 2 + b ^ 2 + c ^ 2 : ℚ) : ℝ)| ≤ 254 / 100 * (√((a ^ 2 + b ^ 2 + c ^ 2 : ℚ) : ℝ) / 2 ^ f.prec) := by
  have e : |a * a| + |b * b| + |c * c| = a ^ 2 + b ^ 2 + c ^ 2 := by
    rw [abs_mul_self, abs_mul_self, abs_mul_self]; ring
  obtain ⟨r, hr⟩ := sum3_acc hf hx hy hz hx hy hz (by rw [e]; exact h)
  rw [e, ← sq, ← sq, ← sq] at hr
  obtain ⟨h0, he⟩ := hr.root hf h' (by norm_num) (by norm_num) (by norm_num) (by norm_num)
  obtain ⟨e1, e2⟩ := sqrt_stands hf hr.stands h0
  refine ⟨_, e1, e2, he.trans ?_⟩
  apply mul_le_mul_of_nonneg_right _ (by positivity)
  norm_num

/-- The length of a vector is right to three units, if its square is neither too large nor too small for the format. -/
theorem C111_length (f : Fmt) (hf : f = .double ∨ f = .single) (v : Vec3 Flt) (a b c : ℚ) (hx : Stands f v.x a)
    (hy : Stands f v.y b) (hz : Stands f v.z c) (h : a ^ 2 + b ^ 2 + c ^ 2 ≤ f.maxVal / 2)
    (h' : 2 ^ (f.prec + 10) * 2 ^ f.emin ≤ a ^ 2 + b ^ 2 + c ^ 2) :
    ∃ l : ℚ, Stands f (length f v) l ∧
      |(l : ℝ) - √((a : ℝ) ^ 2 + (b : ℝ) ^ 2 + (c : ℝ) ^ 2)| ≤ 3 / 2 ^ f.prec * √((a : ℝ) ^ 2 + (b : ℝ) ^ 2 + (c : ℝ) ^ 2) := by
  obtain ⟨l, _, h1, h2⟩ := length_err hf hx hy hz h h'
  push_cast at h2
  refine ⟨l, h1, h2.trans ?_⟩
  have e (s : ℝ) : 3 / 2 ^ f.prec * s = 3 * (s / 2 ^ f.prec) := by ring
  rw [e]
  exact mul_le_mul_of_nonneg_right (by norm_num) (by positivity)

/-- A vector along one of the axes has exactly the length of its component. -/
theorem C111_axis (f : Fmt) (hf : f = .double ∨ f = .single) (v : Vec3 Flt) (a b c : ℚ) (hx : Stands f v.x a)
    (hy : Stands f v.y b) (hz : Stands f v.z c) (h : a ^ 2 + b ^ 2 + c ^ 2 ≤ f.maxVal)
    (h' : 2 ^ (f.prec + 10) * 2 ^ f.emin ≤ a ^ 2 + b ^ 2 + c ^ 2) (h1 : b = 0 ∧ c = 0 ∨ a = 0 ∧ c = 0 ∨ a = 0 ∧ b = 0) :
    length f v = .fin false |a + b + c| := by
  have hp := Fmt.pow_pos f.emin
  have key : ∀ {x : Flt} {a : ℚ}, Stands f x a → a ^ 2 ≤ f.maxVal → 2 ^ (f.prec + 10) * 2 ^ f.emin ≤ a ^ 2 →
      f.mul x x = .fin false (f.rnd (a * a)) ∧ IsFloat f (.fin false (f.rnd (a * a))) ∧
      f.sqrt (.fin false (f.rnd (a * a))) = .fin false |a| := by
    intro x a hx h h'
    rw [sq] at h h'
    obtain ⟨e1, e2⟩ := square_fits hf hx h
    have ha : 0 < |a| := by
      rw [abs_pos]; rintro rfl
      have : (0 : ℚ) < 2 ^ (f.prec + 10) * 2 ^ f.emin := by positivity
      linarith
    have e3 : |a| * |a| = a * a := abs_mul_abs_self a
    have e4 := root_of_square hf ha (isBinary_abs hx.binary) (by rw [e3]; exact h')
    rw [e3] at e4
    have h0 : f.rnd (a * a) ≠ 0 := by
      intro hc
      rw [hc, f.rndRoot_zero] at e4
      rw [← e4] at ha
      exact lt_irrefl _ ha
    refine ⟨e1, e2, ?_⟩
    simp only [Fmt.sqrt, h0, if_false, Bool.false_eq_true, e4]
  have kz : ∀ {x : Flt}, Stands f x 0 → f.mul x x = .fin false 0 := fun hx => square_under hf hx (by linarith [hp])
  have z0 : f.add (.fin false 0) (.fin false 0) = .fin false 0 :=
    (add_zero_fin hf ⟨le_rfl, (maxVal_pos hf).le, zero_binary f⟩).1
  unfold length
  rcases h1 with ⟨rfl, rfl⟩ | ⟨rfl, rfl⟩ | ⟨rfl, rfl⟩ <;> norm_num at h h' ⊢
  · obtain ⟨e1, e2, e3⟩ := key hx h h'
    rw [e1, kz hy, kz hz, (add_zero_fin hf e2).1, (add_zero_fin hf e2).1, e3]
  · obtain ⟨e1, e2, e3⟩ := key hy h h'
    rw [e1, kz hx, kz hz, (add_zero_fin hf e2).2, (add_zero_fin hf e2).1, e3]
  · obtain ⟨e1, e2, e3⟩ := key hz h h'
    rw [e1, kz hx, kz hy, z0, (add_zero_fin hf e2).2, e3]

/-- If the components and the length are whole numbers and the square is below `2 ^ prec`, the computed length is exact. -/
theorem C111_integers (f : Fmt) (hf : f = .double ∨ f = .single) (v : Vec3 Flt) (a b c n : Int) (hx : Stands f v.x a)
    (hy : Stands f v.y b) (hz : Stands f v.z c) (h : a ^ 2 + b ^ 2 + c ^ 2 = n ^ 2) (hn : n ^ 2 < 2 ^ f.prec) :
    length f v = .fin false |(n : ℚ)| := by
  have h1 := sq_nonneg a
  have h2 := sq_nonneg b
  have h3 := sq_nonneg c
  have ab : ∀ {k : Int}, 0 ≤ k → k ≤ n ^ 2 → |k| < 2 ^ f.prec := by
    intro k h0 hk; rw [abs_of_nonneg h0]; linarith
  have A := int_mul hf hx hx (by rw [← sq]; exact ab h1 (by linarith))
  have B := int_mul hf hy hy (by rw [← sq]; exact ab h2 (by linarith))
  have C := int_mul hf hz hz (by rw [← sq]; exact ab h3 (by linarith))
  have D := int_add hf A B (by rw [← sq, ← sq]; exact ab (by linarith) (by linarith))
  have E := int_add hf D C (by rw [← sq, ← sq, ← sq]; exact ab (by linarith) (by linarith))
  rw [← sq, ← sq, ← sq, h] at E
  by_cases h0 : n = 0
  · subst h0
    have z : a = 0 ∧ b = 0 ∧ c = 0 := by
      refine ⟨?_, ?_, ?_⟩ <;> nlinarith
    obtain ⟨rfl, rfl, rfl⟩ := z
    rw [Int.cast_zero] at hx hy hz
    have hp := Fmt.pow_pos f.emin
    unfold length
    rw [square_under hf hx (by linarith), square_under hf hy (by linarith), square_under hf hz (by linarith)]
    have z0 : f.add (.fin false 0) (.fin false 0) = .fin false 0 :=
      (add_zero_fin hf ⟨le_rfl, (maxVal_pos hf).le, zero_binary f⟩).1
    rw [z0, z0, sqrt_zero]
    simp
  · have hn1 : |n| < 2 ^ f.prec := by
      refine lt_of_le_of_lt ?_ hn
      rw [← sq_abs]
      have := Int.one_le_abs h0
      nlinarith
    have hb : IsBinary f.prec f.emin |(n : ℚ)| := isBinary_abs (int_binary hf hn1)
    refine C111_root_exact f hf _ _ (by positivity) hb ?_
    rw [abs_mul_abs_self]
    push_cast at E
    rwa [sq] at E

/-- The length is a number that is not negative, unless a component is not a number; then it is not a number. -/
theorem C111_number (f : Fmt) (v : Vec3 Flt) :
    (IsNumber v.x ∧ IsNumber v.y ∧ IsNumber v.z → AtMost (.fin false 0) (length f v) ∧ (length f v).sgn = false) ∧
    (¬ (IsNumber v.x ∧ IsNumber v.y ∧ IsNumber v.z) → length f v = .nan false) := by
  constructor
  · rintro ⟨hx, hy, hz⟩
    have h : NonNeg (length f v) := (((nonNeg_square hx).add (nonNeg_square hy)).add (nonNeg_square hz)).sqrt
    refine ⟨h.atMost, ?_⟩
    rcases h with ⟨m, _, e⟩ | e <;> rw [e] <;> rfl
  · intro h
    have hn : ∀ {x : Flt}, ¬ IsNumber x → ∃ s, x = .nan s := by
      intro x h
      rcases x with ⟨s, m⟩ | s | s
      · exact absurd ⟨_, rfl⟩ h
      · cases s <;> exact absurd ⟨_, rfl⟩ h
      · exact ⟨s, rfl⟩
    unfold length
    by_cases hx : IsNumber v.x
    · by_cases hy : IsNumber v.y
      · obtain ⟨s, e⟩ := hn (fun hz => h ⟨hx, hy, hz⟩)
        rw [e, mul_nan_left, add_nan_right]; rfl
      · obtain ⟨s, e⟩ := hn hy
        rw [e, mul_nan_left, add_nan_right, add_nan_left]; rfl
    · obtain ⟨s, e⟩ := hn hx
      rw [e, mul_nan_left, add_nan_left, add_nan_left]; rfl

/-- If a component is infinite, or too large for its square, the length is infinite. -/
theorem C111_infinite (f : Fmt) (hf : f = .double ∨ f = .single) (v : Vec3 Flt) (hx : IsNumber v.x) (hy : IsNumber v.y)
    (hz : IsNumber v.z)
    (h : ∃ x ∈ [v.x, v.y, v.z], (∃ s, x = .inf s) ∨ ∃ a : ℚ, Stands f x a ∧ 2 * f.maxVal ≤ a ^ 2) : length f v = .inf false := by
  obtain ⟨x, hm, hi⟩ := h
  have e : f.mul x x = .inf false := by
    rcases hi with ⟨s, rfl⟩ | ⟨a, ha, hl⟩
    · cases s <;> rfl
    · exact square_over hf ha (by rwa [sq] at hl)
  have px := nonNeg_square (f := f) hx
  have py := nonNeg_square (f := f) hy
  have pz := nonNeg_square (f := f) hz
  unfold length
  simp only [List.mem_cons, List.not_mem_nil, or_false] at hm
  rcases hm with rfl | rfl | rfl
  · rw [e, py.add_inf.2, pz.add_inf.2]; rfl
  · rw [e, px.add_inf.1, pz.add_inf.2]; rfl
  · rw [e, (px.add py).add_inf.1]; rfl

/-- If all components are too small for their squares, the length is zero. -/
theorem C111_vanishing (f : Fmt) (hf : f = .double ∨ f = .single) (v : Vec3 Flt) (a b c : ℚ) (hx : Stands f v.x a)
    (hy : Stands f v.y b) (hz : Stands f v.z c) (ha : a ^ 2 < 2 ^ f.emin / 2) (hb : b ^ 2 < 2 ^ f.emin / 2)
    (hc : c ^ 2 < 2 ^ f.emin / 2) : length f v = .fin false 0 := by
  rw [sq] at ha hb hc
  unfold length
  rw [square_under hf hx ha, square_under hf hy hb, square_under hf hz hc]
  have z0 : f.add (.fin false 0) (.fin false 0) = .fin false 0 :=
    (add_zero_fin hf ⟨le_rfl, (maxVal_pos hf).le, zero_binary f⟩).1
  rw [z0, z0, sqrt_zero]

/-- Full statement: the length of every vector with finite components is right to three units. -/
def LengthRight : Prop := ∀ (v : Vec3 Flt) (a b c : ℚ), Stands .double v.x a → Stands .double v.y b → Stands .double v.z c →
  √((a : ℝ) ^ 2 + (b : ℝ) ^ 2 + (c : ℝ) ^ 2) ≤ Fmt.double.maxVal → ∃ l : ℚ, Stands .double (length .double v) l ∧
    |(l : ℝ) - √((a : ℝ) ^ 2 + (b : ℝ) ^ 2 + (c : ℝ) ^ 2)| ≤ 3 / 2 ^ 53 * √((a : ℝ) ^ 2 + (b : ℝ) ^ 2 + (c : ℝ) ^ 2)

/-- It is not: `( 2^600, 0, 0 )` has infinite length, and `( 2^-600, 0, 0 )` has length zero. -/
theorem C111_length_refuted : ¬ LengthRight ∧
    (∃ v : Vec3 Flt, Stands .double v.x (2 ^ 600) ∧ Stands .double v.y 0 ∧ Stands .double v.z 0 ∧ length .double v = .inf false) ∧
    ∃ v : Vec3 Flt, Stands .double v.x (1 / 2 ^ 600) ∧ Stands .double v.y 0 ∧ Stands .double v.z 0 ∧
      length .double v = .fin false 0 := by
  have z := zero_stands .double (.inl rfl) false
  have big : Stands .double (.fin false (2 ^ 600)) (2 ^ 600) :=
    ⟨⟨by positivity, by decide +kernel, pow_binary (.inl rfl) 600⟩, rfl⟩
  have small : Stands .double (.fin false (1 / 2 ^ 600)) (1 / 2 ^ 600) := by
    simpa using stands_double false (n := 1) (e := 600) (by norm_num) (by norm_num)
  have hbig : length .double ⟨.fin false (2 ^ 600), .fin false 0, .fin false 0⟩ = .inf false := by
    refine C111_infinite .double (.inl rfl) _ ⟨_, rfl⟩ ⟨_, rfl⟩ ⟨_, rfl⟩ ⟨_, List.mem_cons_self, .inr ⟨_, big, ?_⟩⟩
    decide +kernel
  refine ⟨fun h => ?_, ⟨_, big, z, z, hbig⟩, ⟨⟨.fin false (1 / 2 ^ 600), .fin false 0, .fin false 0⟩, small, z, z, ?_⟩⟩
  · have hle : √(((2 ^ 600 : ℚ) : ℝ) ^ 2 + ((0 : ℚ) : ℝ) ^ 2 + ((0 : ℚ) : ℝ) ^ 2) ≤ Fmt.double.maxVal := by
      have e : ((2 ^ 600 : ℚ) : ℝ) ^ 2 + ((0 : ℚ) : ℝ) ^ 2 + ((0 : ℚ) : ℝ) ^ 2 = ((2 ^ 600 : ℚ) : ℝ) ^ 2 := by simp
      rw [e, Real.sqrt_sq (by positivity)]
      have : (2 ^ 600 : ℚ) ≤ Fmt.double.maxVal := by decide +kernel
      exact_mod_cast this
    obtain ⟨l, hl, _⟩ := h ⟨.fin false (2 ^ 600), .fin false 0, .fin false 0⟩ (2 ^ 600) 0 0 big z z hle
    rw [hbig] at hl
    obtain ⟨s, m, e, _⟩ := hl.fin
    cases e
  · refine C111_vanishing .double (.inl rfl) ⟨.fin false (1 / 2 ^ 600), .fin false 0, .fin false 0⟩ _ _ _ small z z ?_ ?_ ?_ <;>
      decide +kernel

/-! ## Quaternions -/

/-- The sum of four products. -/
theorem sum4_acc {f : Fmt} (hf : f = .double ∨ f = .single) {w x y z : Flt} {d a b c : ℚ} (hw : Stands f w d) (hx : Stands f x a)
    (hy : Stands f y b) (hz : Stands f z c) (h : d ^ 2 + a ^ 2 + b ^ 2 + c ^ 2 ≤ f.maxVal / 2) :
    ∃ r, Acc f (4003 / 1000) 4 (f.add (f.add (f.add (f.mul w w) (f.mul x x)) (f.mul y y)) (f.mul z z)) r
      (d ^ 2 + a ^ 2 + b ^ 2 + c ^ 2) (d ^ 2 + a ^ 2 + b ^ 2 + c ^ 2) := by
  have h0 := sq_nonneg d
  have h1 := sq_nonneg a
  have h2 := sq_nonneg b
  have h3 := sq_nonneg c
  have e (a : ℚ) : |a * a| = a ^ 2 := by rw [abs_mul_self, sq]
  have A := (mul_term hf hw hw (by rw [e]; linarith)).acc
  have B := A.step hf (mul_term hf hx hx (by rw [e]; linarith)) (by rw [e, e]; linarith) (by norm_num) (by norm_num) (by norm_num) (by norm_num)
  have C := B.step hf (mul_term hf hy hy (by rw [e]; linarith)) (by rw [e, e, e]; linarith) (by norm_num) (by norm_num) (by norm_num) (by norm_num)
  have D := C.step hf (mul_term hf hz hz (by rw [e]; linarith)) (by rw [e, e, e, e]; linarith) (by norm_num) (by norm_num) (by norm_num) (by norm_num)
  rw [e, e, e, e, ← sq, ← sq, ← sq, ← sq] at D
  exact ⟨_, by convert D using 1 <;> norm_num⟩

theorem root4_err {f : Fmt} (hf : f = .double ∨ f = .single) {w x y z : Flt} {d a b c : ℚ} (hw : Stands f w d) (hx : Stands f x a)
    (hy : Stands f y b) (hz : Stands f z c) (h : d ^ 2 + a ^ 2 + b ^ 2 + c ^ 2 ≤ f.maxVal / 2)
    (h' : 2 ^ (f.prec + 10) * 2 ^ f.emin ≤ d ^ 2 + a ^ 2 + b ^ 2 + c ^ 2) :
    ∃ l : ℚ, Stands f (f.sqrt (f.add (f.add (f.add (f.mul w w) (f.mul x x)) (f.mul y y)) (f.mul z z))) l ∧
      |(l : ℝ) - √((d ^ 2 + a ^ 2 + b ^ 2 + c ^ 2 : ℚ) : ℝ)| ≤
        306 / 100 * (√((d ^ 2 + a ^ 2 + b ^ 2 + c ^ 2 : ℚ) : ℝ) / 2 ^ f.prec) := by
  obtain ⟨r, hr⟩ := sum4_acc hf hw hx hy hz h
  obtain ⟨h0, he⟩ := hr.root hf h' (by norm_num) (by norm_num) (by norm_num) (by norm_num)
  obtain ⟨e1, e2⟩ := sqrt_stands hf hr.stands h0
  refine ⟨_, e2, he.trans ?_⟩
  apply mul_le_mul_of_nonneg_right _ (by positivity)
  norm_num

/-- The length of a quaternion is right to four units, if its square is neither too large nor too small for the format. -/
theorem C111_quat_length (f : Fmt) (hf : f = .double ∨ f = .single) (q : Quat Flt) (d a b c : ℚ) (hw : Stands f q.w d)
    (hx : Stands f q.x a) (hy : Stands f q.y b) (hz : Stands f q.z c) (h : d ^ 2 + a ^ 2 + b ^ 2 + c ^ 2 ≤ f.maxVal / 2)
    (h' : 2 ^ (f.prec + 10) * 2 ^ f.emin ≤ d ^ 2 + a ^ 2 + b ^ 2 + c ^ 2) :
    ∃ l : ℚ, Stands f (quatLength f q) l ∧
      |(l : ℝ) - √((d : ℝ) ^ 2 + (a : ℝ) ^ 2 + (b : ℝ) ^ 2 + (c : ℝ) ^ 2)| ≤
        4 / 2 ^ f.prec * √((d : ℝ) ^ 2 + (a : ℝ) ^ 2 + (b : ℝ) ^ 2 + (c : ℝ) ^ 2) := by
  obtain ⟨l, h1, h2⟩ := root4_err hf hw hx hy hz h h'
  push_cast at h2
  refine ⟨l, h1, h2.trans ?_⟩
  have e (s : ℝ) : 4 / 2 ^ f.prec * s = 4 * (s / 2 ^ f.prec) := by ring
  rw [e]
  exact mul_le_mul_of_nonneg_right (by norm_num) (by positivity)

/-! Concrete cases. -/

/-- The square roots of 2 in both formats, of -4, -0 and 12.25. -/
example : Fmt.double.sqrt (.fin false 2) = .fin false (6369051672525773 / 2 ^ 52) ∧
    Fmt.single.sqrt (.fin false 2) = .fin false (11863283 / 2 ^ 23) ∧ Fmt.double.sqrt (.fin true 4) = .nan false ∧
    Fmt.double.sqrt (.fin true 0) = .fin true 0 ∧ Fmt.double.sqrt (.fin false (49 / 4)) = .fin false (7 / 2) := by decide +kernel

/-- `( 3, 4, 12 )` has length 13, and `( 1, 1, 1 )` the number nearest to the root of 3. -/
example : length .double ⟨.fin false 3, .fin true 4, .fin false 12⟩ = .fin false 13 ∧
    length .double ⟨.fin false 1, .fin false 1, .fin true 1⟩ = .fin false (7800463371553962 / 2 ^ 52) := by decide +kernel

example : ∃ l : ℚ, Stands .double (length .double ⟨.fin false 1, .fin false 1, .fin true 1⟩) l ∧
    |(l : ℝ) - √(((1 : ℚ) : ℝ) ^ 2 + ((1 : ℚ) : ℝ) ^ 2 + ((-1 : ℚ) : ℝ) ^ 2)| ≤
      3 / 2 ^ 53 * √(((1 : ℚ) : ℝ) ^ 2 + ((1 : ℚ) : ℝ) ^ 2 + ((-1 : ℚ) : ℝ) ^ 2) :=
  C111_length .double (.inl rfl) _ 1 1 (-1) (one_stands (.inl rfl)) (one_stands (.inl rfl)) (neg_stands (one_stands (.inl rfl)))
    (by decide +kernel) (by decide +kernel)

end Flut
