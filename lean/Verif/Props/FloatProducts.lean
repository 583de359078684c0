import Verif.Props.FloatLength

/-! # Property theorems: products, quotients and distances of vectors in floating-point arithmetic (C113) -/

namespace Flut

open Spec FloatMath

/-! ## Products -/

theorem Fmt.mul_comm (f : Fmt) (x y : Flt) : f.mul x y = f.mul y x := by
  rcases x with ⟨s, m⟩ | s | s <;> rcases y with ⟨s', m'⟩ | s' | s' <;> simp only [Fmt.mul]
  · rw [_root_.mul_comm m m', bne_comm (a := s)]
  · rw [bne_comm (a := s)]
  · rw [bne_comm (a := s)]
  · rw [bne_comm (a := s)]

/-- The dot product does not depend on the order of its arguments, whatever they are. -/
theorem C113_dot_comm (f : Fmt) (v w : Vec3 Flt) : dotProduct f v w = dotProduct f w v := by
  unfold dotProduct
  rw [f.mul_comm v.x, f.mul_comm v.y, f.mul_comm v.z]

/-- The dot product is right to four units of the sum of the magnitudes of its terms, and the smallest numbers. -/
theorem C113_dot (f : Fmt) (hf : f = .double ∨ f = .single) (v w : Vec3 Flt) (a b c a' b' c' : ℚ) (hx : Stands f v.x a)
    (hy : Stands f v.y b) (hz : Stands f v.z c) (hx' : Stands f w.x a') (hy' : Stands f w.y b') (hz' : Stands f w.z c')
    (h : |a * a'| + |b * b'| + |c * c'| ≤ f.maxVal / 2) :
    ∃ r, Stands f (dotProduct f v w) r ∧
      |r - (a * a' + b * b' + c * c')| ≤ 4 / 2 ^ f.prec * (|a * a'| + |b * b'| + |c * c'|) + 3 * 2 ^ f.emin := by
  obtain ⟨r, hr⟩ := sum3_acc hf hx hy hz hx' hy' hz' h
  refine ⟨r, hr.stands, hr.err.trans ?_⟩
  have e : 4 / 2 ^ f.prec * (|a * a'| + |b * b'| + |c * c'|) = 4 * ((|a * a'| + |b * b'| + |c * c'|) / 2 ^ f.prec) := by ring
  have : 0 ≤ (|a * a'| + |b * b'| + |c * c'|) / 2 ^ f.prec := by positivity
  rw [e]
  linarith

theorem abs_sum3 (p q r : Int) : |p + q + r| ≤ |p| + |q| + |r| := by
  have := abs_add_le (p + q) r
  have := abs_add_le p q
  linarith

/-- The dot product of vectors of integers is exact, if the terms are not too large. -/
theorem C113_dot_integers (f : Fmt) (hf : f = .double ∨ f = .single) (v w : Vec3 Flt) (a b c a' b' c' : Int) (hx : Stands f v.x a)
    (hy : Stands f v.y b) (hz : Stands f v.z c) (hx' : Stands f w.x a') (hy' : Stands f w.y b') (hz' : Stands f w.z c')
    (h : |a * a'| + |b * b'| + |c * c'| < 2 ^ f.prec) : Stands f (dotProduct f v w) ((a * a' + b * b' + c * c' : Int) : ℚ) := by
  have h1 := abs_nonneg (a * a')
  have h2 := abs_nonneg (b * b')
  have h3 := abs_nonneg (c * c')
  have t := abs_add_le (a * a') (b * b')
  have A := int_mul hf hx hx' (by linarith)
  have B := int_mul hf hy hy' (by linarith)
  have C := int_mul hf hz hz' (by linarith)
  exact int_add hf (int_add hf A B (by linarith)) C (by linarith [abs_sum3 (a * a') (b * b') (c * c')])

/-- A difference of two products. -/
theorem diff2_acc {f : Fmt} (hf : f = .double ∨ f = .single) {x y x' y' : Flt} {a b a' b' : ℚ} (hx : Stands f x a)
    (hy : Stands f y b) (hx' : Stands f x' a') (hy' : Stands f y' b') (h : |a * b| + |a' * b'| ≤ f.maxVal / 2) :
    ∃ r, Stands f (f.sub (f.mul x y) (f.mul x' y')) r ∧
      |r - (a * b - a' * b')| ≤ 3 / 2 ^ f.prec * (|a * b| + |a' * b'|) + 2 * 2 ^ f.emin := by
  have h1 := abs_nonneg (a * b)
  have h2 := abs_nonneg (a' * b')
  have A := (mul_term hf hx hy (by linarith)).acc
  have B := A.step hf (mul_term hf hx' hy' (by linarith)).neg (by rw [abs_neg]; linarith) (by norm_num) (by norm_num) (by norm_num) (by norm_num)
  refine ⟨_, B.stands, ?_⟩
  have := B.err
  rw [abs_neg, ← sub_eq_add_neg (a * b)] at this
  refine this.trans ?_
  have e : 3 / 2 ^ f.prec * (|a * b| + |a' * b'|) = 3 * ((|a * b| + |a' * b'|) / 2 ^ f.prec) := by ring
  have : 0 ≤ (|a * b| + |a' * b'|) / 2 ^ f.prec := by positivity
  rw [e]
  linarith

/-- Every component of the cross product is right to three units of the sum of the magnitudes of its terms, and the smallest numbers. -/
theorem C113_cross (f : Fmt) (hf : f = .double ∨ f = .single) (v w : Vec3 Flt) (a b c a' b' c' : ℚ) (hx : Stands f v.x a)
    (hy : Stands f v.y b) (hz : Stands f v.z c) (hx' : Stands f w.x a') (hy' : Stands f w.y b') (hz' : Stands f w.z c')
    (h1 : |b * c'| + |c * b'| ≤ f.maxVal / 2) (h2 : |c * a'| + |a * c'| ≤ f.maxVal / 2) (h3 : |a * b'| + |b * a'| ≤ f.maxVal / 2) :
    ∃ x y z, Stands f (crossProduct f v w).x x ∧ Stands f (crossProduct f v w).y y ∧ Stands f (crossProduct f v w).z z ∧
      |x - (b * c' - c * b')| ≤ 3 / 2 ^ f.prec * (|b * c'| + |c * b'|) + 2 * 2 ^ f.emin ∧
      |y - (c * a' - a * c')| ≤ 3 / 2 ^ f.prec * (|c * a'| + |a * c'|) + 2 * 2 ^ f.emin ∧
      |z - (a * b' - b * a')| ≤ 3 / 2 ^ f.prec * (|a * b'| + |b * a'|) + 2 * 2 ^ f.emin := by
  obtain ⟨x, s1, e1⟩ := diff2_acc hf hy hz' hz hy' h1
  obtain ⟨y, s2, e2⟩ := diff2_acc hf hz hx' hx hz' h2
  obtain ⟨z, s3, e3⟩ := diff2_acc hf hx hy' hy hx' h3
  exact ⟨x, y, z, s1, s2, s3, e1, e2, e3⟩

theorem int_sub {f : Fmt} (hf : f = .double ∨ f = .single) {x y : Flt} {a b : Int} (hx : Stands f x a) (hy : Stands f y b)
    (h : |a - b| < 2 ^ f.prec) : Stands f (f.sub x y) ((a - b : Int) : ℚ) := by
  have := sub_stands hf hx hy (by rw [← Int.cast_sub]; exact int_max hf h)
  rwa [← Int.cast_sub, Fmt.srnd_self (prec_pos hf) (int_binary hf h)] at this

/-- The cross product of vectors of integers is exact, if the terms are not too large. -/
theorem C113_cross_integers (f : Fmt) (hf : f = .double ∨ f = .single) (v w : Vec3 Flt) (a b c a' b' c' : Int) (hx : Stands f v.x a)
    (hy : Stands f v.y b) (hz : Stands f v.z c) (hx' : Stands f w.x a') (hy' : Stands f w.y b') (hz' : Stands f w.z c')
    (h1 : |b * c'| + |c * b'| < 2 ^ f.prec) (h2 : |c * a'| + |a * c'| < 2 ^ f.prec) (h3 : |a * b'| + |b * a'| < 2 ^ f.prec) :
    Stands f (crossProduct f v w).x ((b * c' - c * b' : Int) : ℚ) ∧ Stands f (crossProduct f v w).y ((c * a' - a * c' : Int) : ℚ) ∧
    Stands f (crossProduct f v w).z ((a * b' - b * a' : Int) : ℚ) := by
  have key : ∀ {x y x' y' : Flt} {p q p' q' : Int}, Stands f x p → Stands f y q → Stands f x' p' → Stands f y' q' →
      |p * q| + |p' * q'| < 2 ^ f.prec → Stands f (f.sub (f.mul x y) (f.mul x' y')) ((p * q - p' * q' : Int) : ℚ) := by
    intro x y x' y' p q p' q' s1 s2 s3 s4 h
    have n1 := abs_nonneg (p * q)
    have n2 := abs_nonneg (p' * q')
    refine int_sub hf (int_mul hf s1 s2 (by linarith)) (int_mul hf s3 s4 (by linarith)) ?_
    have := abs_sub (p * q) (p' * q')
    linarith
  exact ⟨key hy hz' hz hy' h1, key hz hx' hx hz' h2, key hx hy' hy hx' h3⟩

theorem result_neg_pos (f : Fmt) (z z' : Bool) (q : ℚ) : (f.result z (-q)).pos = (f.result z' q).neg.pos := by
  unfold Fmt.result
  rw [abs_neg]
  rcases lt_trichotomy q 0 with h | rfl | h
  · have h1 : ¬ -q < 0 := by linarith
    have h2 : -q ≠ 0 := by intro h'; linarith
    by_cases hm : f.maxVal < f.rnd |q| <;> simp [hm, h, h.ne, h1, Flt.neg, Flt.pos]
  · by_cases hm : f.maxVal < f.rnd |(0 : ℚ)|
    · by_cases h0 : f.maxVal < 0
      · exfalso
        have : (0 : ℚ) ≤ f.maxVal := by
          unfold Fmt.maxVal
          have : (1 : ℚ) ≤ 2 ^ f.prec := one_le_pow₀ (by norm_num)
          have : (0 : ℚ) ≤ 2 ^ f.prec - 1 := by linarith
          positivity
        linarith
      · rw [abs_zero, f.rnd_zero] at hm; exact absurd hm h0
    · rw [abs_zero, f.rnd_zero] at hm
      simp [hm, f.rnd_zero, Flt.neg, Flt.pos]
  · have h1 : ¬ q < 0 := by linarith
    by_cases hm : f.maxVal < f.rnd |q| <;> simp [hm, h, h.ne', h1, Flt.neg, Flt.pos]

theorem sub_swap_pos (f : Fmt) (x y : Flt) : (f.sub y x).pos = (f.sub x y).neg.pos := by
  rcases x with ⟨s, m⟩ | s | s <;> rcases y with ⟨s', m'⟩ | s' | s'
  · rw [sub_fin, sub_fin, ← neg_sub (Flt.fin s m).val, result_neg_pos f _ (s && !s')]
  all_goals first | (cases s <;> rfl) | (cases s' <;> rfl) | (cases s <;> cases s' <;> rfl)

/-- Exchanging the arguments of the cross product changes the sign of every component, whatever the arguments are (and not-a-number stays
not-a-number). -/
theorem C113_cross_anti (f : Fmt) (v w : Vec3 Flt) :
    (crossProduct f w v).x.pos = (crossProduct f v w).x.neg.pos ∧ (crossProduct f w v).y.pos = (crossProduct f v w).y.neg.pos ∧
    (crossProduct f w v).z.pos = (crossProduct f v w).z.neg.pos := by
  refine ⟨?_, ?_, ?_⟩ <;> unfold crossProduct <;> dsimp only
  · rw [f.mul_comm w.y, f.mul_comm w.z]; exact sub_swap_pos f _ _
  · rw [f.mul_comm w.z, f.mul_comm w.x]; exact sub_swap_pos f _ _
  · rw [f.mul_comm w.x, f.mul_comm w.y]; exact sub_swap_pos f _ _

theorem sub_self_fin {f : Fmt} (hf : f = .double ∨ f = .single) (s : Bool) (m : ℚ) : f.sub (.fin s m) (.fin s m) = .fin false 0 := by
  rw [sub_fin, sub_self]
  have h := (maxVal_pos hf).le
  simp only [Fmt.result, abs_zero, f.rnd_zero, if_neg (not_lt.2 h), if_true]
  cases s <;> rfl

/-- The cross product of a vector with itself is the null vector, if no product overflows. -/
theorem C113_cross_self (f : Fmt) (hf : f = .double ∨ f = .single) (v : Vec3 Flt) (a b c : ℚ) (hx : Stands f v.x a)
    (hy : Stands f v.y b) (hz : Stands f v.z c) (h1 : |b * c| ≤ f.maxVal) (h2 : |c * a| ≤ f.maxVal) (h3 : |a * b| ≤ f.maxVal) :
    crossProduct f v v = ⟨.fin false 0, .fin false 0, .fin false 0⟩ := by
  have key : ∀ {x y : Flt} {p q : ℚ}, Stands f x p → Stands f y q → |p * q| ≤ f.maxVal →
      f.sub (f.mul x y) (f.mul y x) = .fin false 0 := by
    intro x y p q sx sy h
    obtain ⟨s, m, e, _⟩ := (mul_stands hf sx sy h).fin
    rw [f.mul_comm y x, e]
    exact sub_self_fin hf s m
  unfold crossProduct
  rw [key hy hz h1, key hz hx h2, key hx hy h3]

/-- Full statement: the cross product of finite vectors with themselves is the null vector. -/
def CrossSelf : Prop := ∀ (v : Vec3 Flt) (a b c : ℚ), Stands .double v.x a → Stands .double v.y b → Stands .double v.z c →
  crossProduct .double v v = ⟨.fin false 0, .fin false 0, .fin false 0⟩

/-- It is not a number if a product overflows. -/
theorem C113_cross_self_refuted : ¬ CrossSelf := by
  intro h
  have big : Stands .double (.fin false (2 ^ 600)) (2 ^ 600) :=
    ⟨⟨by positivity, by decide +kernel, pow_binary (.inl rfl) 600⟩, rfl⟩
  have := h ⟨.fin false (2 ^ 600), .fin false (2 ^ 600), .fin false 0⟩ _ _ _ big big (zero_stands .double (.inl rfl) false)
  revert this
  decide +kernel

/-! ## Distances -/

/-- The distance is the length of the difference. -/
theorem C113_distance_length (f : Fmt) (v w : Vec3 Flt) :
    distance f v w = length f ⟨f.sub v.x w.x, f.sub v.y w.y, f.sub v.z w.z⟩ := rfl

theorem square_neg (f : Fmt) (x : Flt) : f.mul x.neg x.neg = f.mul x x := by
  rcases x with ⟨s, m⟩ | s | s
  · show f.mul (.fin (!s) m) (.fin (!s) m) = _
    rw [mul_self_fin, mul_self_fin]
  · cases s <;> rfl
  · cases s <;> rfl

theorem square_swap (f : Fmt) (x y : Flt) : squared f (f.sub x y) = squared f (f.sub y x) := by
  unfold squared
  have h := sub_swap_pos f x y
  generalize f.sub x y = p at *
  generalize f.sub y x = q at *
  rw [← square_neg f p]
  rcases p with ⟨s, m⟩ | ⟨_ | _⟩ | s <;> rcases q with ⟨s', m'⟩ | ⟨_ | _⟩ | s' <;> first | rfl | (simp [Flt.neg, Flt.pos] at h; done) | skip
  · have h' : (if s' = true then -m' else m') = (if (!s) = true then -m else m) := by
      simpa [Flt.neg, Flt.pos] using h
    show f.mul (.fin (!s) m) (.fin (!s) m) = _
    rw [mul_self_fin, mul_self_fin]
    have : m * m = m' * m' := by
      have e1 : (if s' = true then -m' else m') * (if s' = true then -m' else m') = m' * m' := by cases s' <;> simp
      have e2 : (if (!s) = true then -m else m) * (if (!s) = true then -m else m) = m * m := by cases s <;> simp
      rw [← e1, ← e2, h']
    rw [this]

/-- The distance is the same in both directions, whatever the vectors are. -/
theorem C113_distance_comm (f : Fmt) (v w : Vec3 Flt) : distance f v w = distance f w v := by
  unfold distance
  rw [square_swap f v.x, square_swap f v.y, square_swap f v.z]

/-- A finite vector has distance zero to itself. -/
theorem C113_distance_self (f : Fmt) (hf : f = .double ∨ f = .single) (v : Vec3 Flt) (a b c : ℚ) (hx : Stands f v.x a)
    (hy : Stands f v.y b) (hz : Stands f v.z c) : distance f v v = .fin false 0 := by
  have key : ∀ {x : Flt} {p : ℚ}, Stands f x p → f.sub x x = .fin false 0 := by
    intro x p sx
    obtain ⟨s, m, rfl, _⟩ := sx.fin
    exact sub_self_fin hf s m
  unfold distance
  rw [key hx, key hy, key hz]
  rcases hf with rfl | rfl <;> decide +kernel

/-- The distance is right to four units, if its square is neither too large nor too small for the format. -/
theorem C113_distance (f : Fmt) (hf : f = .double ∨ f = .single) (v w : Vec3 Flt) (a b c a' b' c' : ℚ) (hx : Stands f v.x a)
    (hy : Stands f v.y b) (hz : Stands f v.z c) (hx' : Stands f w.x a') (hy' : Stands f w.y b') (hz' : Stands f w.z c')
    (h : (a - a') ^ 2 + (b - b') ^ 2 + (c - c') ^ 2 ≤ f.maxVal / 4)
    (h' : 2 ^ (f.prec + 11) * 2 ^ f.emin ≤ (a - a') ^ 2 + (b - b') ^ 2 + (c - c') ^ 2) :
    ∃ l : ℚ, Stands f (distance f v w) l ∧
      |(l : ℝ) - √(((a : ℝ) - a') ^ 2 + ((b : ℝ) - b') ^ 2 + ((c : ℝ) - c') ^ 2)| ≤
        4 / 2 ^ f.prec * √(((a : ℝ) - a') ^ 2 + ((b : ℝ) - b') ^ 2 + ((c : ℝ) - c') ^ 2) := by
  obtain ⟨h24, hn0, hn, hM⟩ := fmt_consts hf
  have hM1 : (4 : ℚ) ≤ f.maxVal := by linarith [(by norm_num : (4 : ℚ) ≤ 2 ^ 100)]
  have hu0 : (0 : ℚ) < 1 / 2 ^ f.prec := by positivity
  have hu : 1 / (2 : ℚ) ^ f.prec ≤ 1 / 16777216 := by
    apply one_div_le_one_div_of_le (by norm_num)
    norm_num at h24 ⊢; exact h24
  have n1 := sq_nonneg (a - a')
  have n2 := sq_nonneg (b - b')
  have n3 := sq_nonneg (c - c')
  have key : ∀ {x y : Flt} {p q : ℚ}, Stands f x p → Stands f y q → (p - q) ^ 2 ≤ f.maxVal / 4 →
      ∃ r, Stands f (f.sub x y) r ∧ r ^ 2 ≤ (1 + 1 / 2 ^ f.prec) ^ 2 * (p - q) ^ 2 ∧ (1 - 1 / 2 ^ f.prec) ^ 2 * (p - q) ^ 2 ≤ r ^ 2 := by
    intro x y p q sx sy hpq
    have hb : |p - q| ≤ f.maxVal := by
      by_contra hc
      have hc := not_le.1 hc
      rw [← sq_abs] at hpq
      nlinarith
    refine ⟨_, sub_stands hf sx sy hb, ?_⟩
    have hr := srnd_rel (prec_pos hf) (multiple_add (binary_mul sx.binary) (multiple_neg (binary_mul sy.binary)))
    rw [← sub_eq_add_neg, div_eq_mul_one_div] at hr
    have t1 : |f.srnd (p - q)| ≤ (1 + 1 / 2 ^ f.prec) * |p - q| := by
      have := abs_sub_abs_le_abs_sub (f.srnd (p - q)) (p - q)
      linarith
    have t2 : (1 - 1 / 2 ^ f.prec) * |p - q| ≤ |f.srnd (p - q)| := by
      have := abs_sub_abs_le_abs_sub (p - q) (f.srnd (p - q))
      rw [abs_sub_comm (p - q) (f.srnd (p - q))] at this
      linarith
    rw [← sq_abs (f.srnd (p - q)), ← sq_abs (p - q), ← mul_pow, ← mul_pow]
    exact ⟨pow_le_pow_left₀ (abs_nonneg _) t1 2, pow_le_pow_left₀ (mul_nonneg (by linarith) (abs_nonneg _)) t2 2⟩
  obtain ⟨x, sx, x1, x2⟩ := key hx hx' (by linarith)
  obtain ⟨y, sy, y1, y2⟩ := key hy hy' (by linarith)
  obtain ⟨z, sz, z1, z2⟩ := key hz hz' (by linarith)
  have hup : x ^ 2 + y ^ 2 + z ^ 2 ≤ (1 + 1 / 2 ^ f.prec) ^ 2 * ((a - a') ^ 2 + (b - b') ^ 2 + (c - c') ^ 2) := by linarith
  have hlo : (1 - 1 / 2 ^ f.prec) ^ 2 * ((a - a') ^ 2 + (b - b') ^ 2 + (c - c') ^ 2) ≤ x ^ 2 + y ^ 2 + z ^ 2 := by linarith
  have hS0 : 0 ≤ (a - a') ^ 2 + (b - b') ^ 2 + (c - c') ^ 2 := by linarith
  have f1 : (1 + 1 / (2 : ℚ) ^ f.prec) ^ 2 ≤ 2 := by nlinarith
  have f2 : (1 : ℚ) / 2 ≤ (1 - 1 / (2 : ℚ) ^ f.prec) ^ 2 := by nlinarith
  have g1 := mul_le_mul_of_nonneg_right f1 hS0
  have g2 := mul_le_mul_of_nonneg_right f2 hS0
  obtain ⟨l, _, hl, he⟩ := length_err (v := ⟨f.sub v.x w.x, f.sub v.y w.y, f.sub v.z w.z⟩) hf sx sy sz (by linarith) (by
    have e : (2 : ℚ) ^ (f.prec + 11) = 2 * 2 ^ (f.prec + 10) := by ring
    rw [e] at h'
    linarith)
  refine ⟨l, hl, ?_⟩
  have hD : ((a : ℝ) - a') ^ 2 + ((b : ℝ) - b') ^ 2 + ((c : ℝ) - c') ^ 2 = (((a - a') ^ 2 + (b - b') ^ 2 + (c - c') ^ 2 : ℚ) : ℝ) := by
    push_cast; ring
  rw [hD]
  generalize (a - a') ^ 2 + (b - b') ^ 2 + (c - c') ^ 2 = S at *
  generalize x ^ 2 + y ^ 2 + z ^ 2 = R at *
  have hSR : (0 : ℝ) ≤ S := by exact_mod_cast hS0
  have huR : (0 : ℝ) < 1 / 2 ^ f.prec := by positivity
  have hu1 : (1 : ℝ) / 2 ^ f.prec ≤ 1 / 16777216 := one_div_le_one_div_of_le (by norm_num) (prec_real hf)
  have upR : (R : ℝ) ≤ (1 + 1 / 2 ^ f.prec) ^ 2 * S := by
    have : (R : ℝ) ≤ (((1 + 1 / 2 ^ f.prec) ^ 2 * S : ℚ) : ℝ) := by exact_mod_cast hup
    push_cast at this
    exact this
  have loR : (1 - 1 / 2 ^ f.prec) ^ 2 * (S : ℝ) ≤ R := by
    have : (((1 - 1 / 2 ^ f.prec) ^ 2 * S : ℚ) : ℝ) ≤ R := by exact_mod_cast hlo
    push_cast at this
    exact this
  have s1 := Real.sqrt_le_sqrt upR
  have s2 := Real.sqrt_le_sqrt loR
  rw [Real.sqrt_mul (by positivity), Real.sqrt_sq (by linarith)] at s1
  rw [Real.sqrt_mul (by positivity), Real.sqrt_sq (by linarith)] at s2
  have hs0 := Real.sqrt_nonneg (S : ℝ)
  have e4 : 4 / 2 ^ f.prec * √(S : ℝ) = 4 * (1 / 2 ^ f.prec * √(S : ℝ)) := by ring
  have e5 : √(R : ℝ) / 2 ^ f.prec = 1 / 2 ^ f.prec * √(R : ℝ) := by ring
  rw [e4]
  rw [e5] at he
  generalize (1 : ℝ) / 2 ^ f.prec = u at *
  generalize √(S : ℝ) = s at *
  generalize √(R : ℝ) = r at *
  have hus : 0 ≤ u * s := by positivity
  have h5 : u * r ≤ u * ((1 + u) * s) := mul_le_mul_of_nonneg_left s1 huR.le
  have h6 : u * (u * s) ≤ 1 / 16777216 * (u * s) := mul_le_mul_of_nonneg_right hu1 hus
  have h7 := abs_le.1 he
  rw [abs_le]
  constructor <;> nlinarith

/-- Full statement: vectors that are not equal have a distance. -/
def DistanceSeparates : Prop := ∀ (v w : Vec3 Flt) (a b c a' b' c' : ℚ), Stands .double v.x a → Stands .double v.y b →
  Stands .double v.z c → Stands .double w.x a' → Stands .double w.y b' → Stands .double w.z c' → distance .double v w = .fin false 0 →
  a = a' ∧ b = b' ∧ c = c'

/-- The distance of different vectors can be zero. -/
theorem C113_distance_refuted : ¬ DistanceSeparates := by
  intro h
  have z := zero_stands .double (.inl rfl) false
  have small : Stands .double (.fin false (1 / 2 ^ 600)) (1 / 2 ^ 600) := by
    simpa using stands_double false (n := 1) (e := 600) (by norm_num) (by norm_num)
  have := (h ⟨.fin false (1 / 2 ^ 600), .fin false 0, .fin false 0⟩ ⟨.fin false 0, .fin false 0, .fin false 0⟩ _ _ _ _ _ _ small z z z z z
    (by decide +kernel)).1
  norm_num at this

/-! ## Quotients -/

/-- Division by a number is multiplication with its rounded inverse. It is right to three units, and half the smallest number, if the inverse
is neither too large nor too small for the format. -/
theorem C113_divide (f : Fmt) (hf : f = .double ∨ f = .single) (v : Vec3 Flt) (d : Flt) (a b c q : ℚ) (hx : Stands f v.x a)
    (hy : Stands f v.y b) (hz : Stands f v.z c) (hd : Stands f d q) (h0 : q ≠ 0) (h1 : |1 / q| ≤ f.maxVal)
    (h2 : 2 ^ f.prec * 2 ^ f.emin ≤ 2 * |1 / q|)
    (ha : |a / q| ≤ f.maxVal / 2) (hb : |b / q| ≤ f.maxVal / 2) (hc : |c / q| ≤ f.maxVal / 2) :
    ∃ x y z, Stands f (divide f v d).x x ∧ Stands f (divide f v d).y y ∧ Stands f (divide f v d).z z ∧
      |x - a / q| ≤ 3 / 2 ^ f.prec * |a / q| + 2 ^ f.emin / 2 ∧ |y - b / q| ≤ 3 / 2 ^ f.prec * |b / q| + 2 ^ f.emin / 2 ∧
      |z - c / q| ≤ 3 / 2 ^ f.prec * |c / q| + 2 ^ f.emin / 2 := by
  obtain ⟨h24, hn0, hn, hM⟩ := fmt_consts hf
  have hu0 : (0 : ℚ) < 1 / 2 ^ f.prec := by positivity
  have hu : 1 / (2 : ℚ) ^ f.prec ≤ 1 / 16777216 := by
    apply one_div_le_one_div_of_le (by norm_num)
    norm_num at h24 ⊢; exact h24
  have hi := div_stands hf (one_stands hf) hd h0 h1
  have hr := srnd_rel_normal (f := f) h2
  rw [div_eq_mul_one_div _ ((2 : ℚ) ^ f.prec)] at hr
  have key : ∀ {x : Flt} {p : ℚ}, Stands f x p → |p / q| ≤ f.maxVal / 2 →
      ∃ r, Stands f (f.mul x (inv f d)) r ∧ |r - p / q| ≤ 3 / 2 ^ f.prec * |p / q| + 2 ^ f.emin / 2 := by
    intro x p sx hp
    have e : p * f.srnd (1 / q) - p / q = p * (f.srnd (1 / q) - 1 / q) := by ring
    have d1 : |p * f.srnd (1 / q) - p / q| ≤ |p / q| * (1 / 2 ^ f.prec) := by
      rw [e, abs_mul]
      have e2 : |p / q| = |p| * |1 / q| := by rw [← abs_mul]; congr 1; ring
      rw [e2, mul_assoc]
      exact mul_le_mul_of_nonneg_left hr (abs_nonneg p)
    have t := abs_sub_abs_le_abs_sub (p * f.srnd (1 / q)) (p / q)
    have n0 := abs_nonneg (p / q)
    have nu : |p / q| * (1 / 2 ^ f.prec) ≤ |p / q| * (1 / 16777216) := mul_le_mul_of_nonneg_left hu n0
    have d2 : |p * f.srnd (1 / q)| ≤ f.maxVal := by linarith
    refine ⟨_, mul_stands hf sx hi d2, ?_⟩
    have er := srnd_err (f := f) (p * f.srnd (1 / q))
    rw [div_eq_mul_one_div _ ((2 : ℚ) ^ f.prec)] at er
    have t3 := abs_sub_le (f.srnd (p * f.srnd (1 / q))) (p * f.srnd (1 / q)) (p / q)
    have d3 : |p * f.srnd (1 / q)| * (1 / 2 ^ f.prec) ≤ (|p / q| + |p / q| * (1 / 16777216)) * (1 / 2 ^ f.prec) :=
      mul_le_mul_of_nonneg_right (by linarith) hu0.le
    have e3 : 3 / 2 ^ f.prec * |p / q| = 3 * (|p / q| * (1 / 2 ^ f.prec)) := by ring
    have n1 : 0 ≤ |p / q| * (1 / 2 ^ f.prec) := by positivity
    rw [e3]
    linarith
  obtain ⟨x, s1, e1⟩ := key hx ha
  obtain ⟨y, s2, e2⟩ := key hy hb
  obtain ⟨z, s3, e3⟩ := key hz hc
  exact ⟨x, y, z, s1, s2, s3, e1, e2, e3⟩

/-- Division by a power of two is exact, if nothing is too large or too small. -/
theorem C113_divide_exact (f : Fmt) (hf : f = .double ∨ f = .single) (v : Vec3 Flt) (d : Flt) (a b c q : ℚ) (hx : Stands f v.x a)
    (hy : Stands f v.y b) (hz : Stands f v.z c) (hd : Stands f d q) (h0 : q ≠ 0) (hi : IsBinary f.prec f.emin (1 / q))
    (h1 : |1 / q| ≤ f.maxVal) (ha : IsBinary f.prec f.emin (a / q)) (hb : IsBinary f.prec f.emin (b / q))
    (hc : IsBinary f.prec f.emin (c / q)) (ha' : |a / q| ≤ f.maxVal) (hb' : |b / q| ≤ f.maxVal) (hc' : |c / q| ≤ f.maxVal) :
    Stands f (divide f v d).x (a / q) ∧ Stands f (divide f v d).y (b / q) ∧ Stands f (divide f v d).z (c / q) := by
  have hi' := div_stands hf (one_stands hf) hd h0 h1
  rw [Fmt.srnd_self (prec_pos hf) hi] at hi'
  have key : ∀ {x : Flt} {p : ℚ}, Stands f x p → IsBinary f.prec f.emin (p / q) → |p / q| ≤ f.maxVal →
      Stands f (f.mul x (inv f d)) (p / q) := by
    intro x p sx hb hm
    have e : p * (1 / q) = p / q := by ring
    have := mul_stands hf sx hi' (by rw [e]; exact hm)
    rwa [e, Fmt.srnd_self (prec_pos hf) hb] at this
  exact ⟨key hx ha ha', key hy hb hb', key hz hc hc'⟩

/-- Full statement: a quotient that is a number is exact. -/
def DivideExact : Prop := ∀ (v : Vec3 Flt) (d : Flt) (a q : ℚ), Stands .double v.x a → Stands .double d q → q ≠ 0 →
  IsBinary Fmt.double.prec Fmt.double.emin (a / q) → |a / q| ≤ Fmt.double.maxVal → Stands .double (divide .double v d).x (a / q)

/-- It is not: 49 / 49 is below one, and dividing a small vector by its size gives an infinity. -/
theorem C113_divide_refuted : ¬ DivideExact ∧
    (divide .double ⟨.fin false 49, .fin false 0, .fin false 0⟩ (.fin false 49)).x = .fin false (9007199254740991 / 2 ^ 53) ∧
    (divide .double ⟨.fin false (1 / 2 ^ 1030), .fin false 0, .fin false 0⟩ (.fin false (1 / 2 ^ 1030))) =
      ⟨.inf false, .nan false, .nan false⟩ := by
  have h1 : (divide .double ⟨.fin false 49, .fin false 0, .fin false 0⟩ (.fin false 49)).x = .fin false (9007199254740991 / 2 ^ 53) := by
    decide +kernel
  refine ⟨fun h => ?_, h1, by decide +kernel⟩
  have s : Stands .double (.fin false 49) 49 := by
    simpa using stands_double false (n := 49) (e := 0) (by norm_num) (by norm_num)
  have := h ⟨.fin false 49, .fin false 0, .fin false 0⟩ (.fin false 49) 49 49 s s (by norm_num)
    (by rw [div_self (by norm_num)]; simpa using pow_binary (f := .double) (.inl rfl) 0) (by rw [div_self (by norm_num)]; decide +kernel)
  rw [h1] at this
  obtain ⟨s', m, e, e2⟩ := this.fin
  cases e
  norm_num [Flt.val] at e2

/-! ## The null vector -/

/-- `is_null` holds exactly for vectors whose components are zeros. -/
theorem C113_is_null (v : Vec3 Flt) :
    isNull v = true ↔ v.x.pos = (Flt.fin false 0).pos ∧ v.y.pos = (Flt.fin false 0).pos ∧ v.z.pos = (Flt.fin false 0).pos := by
  have key : ∀ x : Flt, x.eq (.fin false 0) = true ↔ x.pos = (Flt.fin false 0).pos := by
    intro x
    rcases x with ⟨s, m⟩ | ⟨_ | _⟩ | s
    · simp [Flt.eq, Flt.pos]
    all_goals simp [Flt.eq, Flt.pos]
    all_goals decide
  simp only [isNull, Bool.and_eq_true, key, and_assoc]

/-! Concrete cases. -/

example : crossProduct .double ⟨.fin false 1, .fin false 2, .fin false 3⟩ ⟨.fin false 4, .fin true 5, .fin false 6⟩ =
    ⟨.fin false 27, .fin false 6, .fin true 13⟩ := by decide +kernel

example : dotProduct .double ⟨.fin false 1, .fin false 2, .fin false 3⟩ ⟨.fin false 4, .fin true 5, .fin false 6⟩ = .fin false 12 := by
  decide +kernel

example : distance .double ⟨.fin false 1, .fin false 2, .fin false 3⟩ ⟨.fin false 4, .fin true 2, .fin false 15⟩ = .fin false 13 := by
  decide +kernel

example : divide .double ⟨.fin false 1, .fin true 2, .fin false 3⟩ (.fin true 4) = ⟨.fin true (1 / 4), .fin false (1 / 2), .fin true (3 / 4)⟩ := by
  decide +kernel

example : isNull ⟨.fin false 0, .fin true 0, .fin false 0⟩ = true ∧ isNull ⟨.fin false 0, .fin true 0, .nan false⟩ = false := by decide +kernel

/-- A third, as it is stored: a vector with components that are not integers meets the hypotheses of the error bounds. -/
theorem third_stands : Stands .double (.fin false (6004799503160661 / 2 ^ 54)) (6004799503160661 / 2 ^ 54) :=
  stands_double false (n := 6004799503160661) (e := 54) (by norm_num) (by norm_num)

theorem three_stands : Stands .double (.fin false 3) 3 := by
  simpa using stands_double false (n := 3) (e := 0) (by norm_num) (by norm_num)

example : ∃ r, Stands .double (dotProduct .double ⟨.fin false (6004799503160661 / 2 ^ 54), .fin false 3, .fin false 3⟩
      ⟨.fin false 3, .fin false (6004799503160661 / 2 ^ 54), .fin false 3⟩) r ∧ |r - 11| ≤ 1 / 2 ^ 47 := by
  obtain ⟨r, h, e⟩ := C113_dot .double (.inl rfl) ⟨.fin false (6004799503160661 / 2 ^ 54), .fin false 3, .fin false 3⟩
    ⟨.fin false 3, .fin false (6004799503160661 / 2 ^ 54), .fin false 3⟩ _ _ _ _ _ _ third_stands three_stands three_stands three_stands
    third_stands three_stands (by decide +kernel)
  refine ⟨r, h, ?_⟩
  have e1 : (4 / 2 ^ Fmt.double.prec * (|(6004799503160661 / 2 ^ 54 : ℚ) * 3| + |(3 : ℚ) * (6004799503160661 / 2 ^ 54)| + |(3 : ℚ) * 3|) +
    3 * 2 ^ Fmt.double.emin) ≤ 1 / 2 ^ 47 - 1 / 2 ^ 53 := by decide +kernel
  rw [abs_le] at e ⊢
  constructor <;> linarith [e.1, e.2]

example : ∃ x y z, Stands .double (divide .double ⟨.fin false (6004799503160661 / 2 ^ 54), .fin false 3, .fin false 3⟩ (.fin false 3)).x x ∧
    Stands .double (divide .double ⟨.fin false (6004799503160661 / 2 ^ 54), .fin false 3, .fin false 3⟩ (.fin false 3)).y y ∧
    Stands .double (divide .double ⟨.fin false (6004799503160661 / 2 ^ 54), .fin false 3, .fin false 3⟩ (.fin false 3)).z z ∧
    |y - 1| ≤ 1 / 2 ^ 51 := by
  obtain ⟨x, y, z, h1, h2, h3, -, e, -⟩ := C113_divide .double (.inl rfl) ⟨.fin false (6004799503160661 / 2 ^ 54), .fin false 3, .fin false 3⟩
    (.fin false 3) _ _ _ _ third_stands three_stands three_stands three_stands (by norm_num) (by decide +kernel) (by decide +kernel)
    (by decide +kernel) (by decide +kernel) (by decide +kernel)
  refine ⟨x, y, z, h1, h2, h3, ?_⟩
  have e1 : (3 / 2 ^ Fmt.double.prec * |(3 / 3 : ℚ)| + 2 ^ Fmt.double.emin / 2) ≤ 1 / 2 ^ 51 := by decide +kernel
  rw [div_self (by norm_num : (3 : ℚ) ≠ 0)] at e e1
  exact e.trans e1

example : ∃ l : ℚ, Stands .double (distance .double ⟨.fin false (6004799503160661 / 2 ^ 54), .fin false 3, .fin false 3⟩
    ⟨.fin false 3, .fin false (6004799503160661 / 2 ^ 54), .fin false 3⟩) l := by
  obtain ⟨l, h, -⟩ := C113_distance .double (.inl rfl) ⟨.fin false (6004799503160661 / 2 ^ 54), .fin false 3, .fin false 3⟩
    ⟨.fin false 3, .fin false (6004799503160661 / 2 ^ 54), .fin false 3⟩ _ _ _ _ _ _ third_stands three_stands three_stands three_stands
    third_stands three_stands (by decide +kernel) (by decide +kernel)
  exact ⟨l, h⟩

example : ∃ x y z, Stands .double (crossProduct .double ⟨.fin false (6004799503160661 / 2 ^ 54), .fin false 3, .fin false 3⟩
      ⟨.fin false 3, .fin false (6004799503160661 / 2 ^ 54), .fin false 3⟩).x x ∧
    Stands .double (crossProduct .double ⟨.fin false (6004799503160661 / 2 ^ 54), .fin false 3, .fin false 3⟩
      ⟨.fin false 3, .fin false (6004799503160661 / 2 ^ 54), .fin false 3⟩).y y ∧
    Stands .double (crossProduct .double ⟨.fin false (6004799503160661 / 2 ^ 54), .fin false 3, .fin false 3⟩
      ⟨.fin false 3, .fin false (6004799503160661 / 2 ^ 54), .fin false 3⟩).z z := by
  obtain ⟨x, y, z, h1, h2, h3, -⟩ := C113_cross .double (.inl rfl) ⟨.fin false (6004799503160661 / 2 ^ 54), .fin false 3, .fin false 3⟩
    ⟨.fin false 3, .fin false (6004799503160661 / 2 ^ 54), .fin false 3⟩ _ _ _ _ _ _ third_stands three_stands three_stands three_stands
    third_stands three_stands (by decide +kernel) (by decide +kernel) (by decide +kernel)
  exact ⟨x, y, z, h1, h2, h3⟩

end Flut
