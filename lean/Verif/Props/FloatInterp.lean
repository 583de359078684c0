import Verif.Proofs.FloatLerp

/-! # Property theorems: interpolation in floating-point arithmetic (C104) -/

namespace Flut

open Spec FloatMath

/-! ### By index -/

theorem floor_rat_nonneg {q : ℚ} (h : 0 ≤ q) : 0 ≤ ⌊q⌋ := Int.floor_nonneg.2 h

/-- What `interpolatedIndex` does with an index that stands for `k`, between two elements. -/
theorem interpolatedIndex_mid {f : Fmt} (hf : f = .double ∨ f = .single) {l : List Flt} {key : Flt} {k : ℚ} (hk : Stands f key k)
    (h0 : 0 ≤ k) {x y : Flt} {i : Nat} (hi : ⌊k⌋ = i) (hx : l[i]? = some x) (hy : l[i + 1]? = some y)
    (hl : l.length < 2 ^ 64) : ∃ w, interpolatedIndex f l key = .ok (lerp f w x y) ∧ Stands f w (k - i) := by
  obtain ⟨s, m, rfl, hm⟩ := hk.fin
  have hm' : m = k := by
    cases s
    · simpa [Flt.val] using hm
    · have := hk.1.1
      simp [Flt.val] at hm
      linarith
  have hlt : ¬ (Flt.fin s m).lt (.fin false 0) = true := by
    rw [lt_stands hk (zero_stands f hf false)]; exact not_lt.2 h0
  obtain ⟨hi1, -⟩ := List.getElem?_eq_some_iff.1 hy
  have hne : l.isEmpty = false := by
    cases l with
    | nil => simp at hx
    | cons => rfl
  obtain ⟨b1, b2⟩ := fract_binary hk.binary h0
  have hle : ((⌊k⌋ : Int) : ℚ) ≤ k := Int.floor_le k
  have hmax := hk.abs_le
  rw [abs_of_nonneg h0] at hmax
  rw [hi] at b1 b2 hle
  have hib : ((i : Int) : ℚ) = (i : ℚ) := by simp
  rw [hib] at b1 b2 hle
  have hi0 : (0 : ℚ) ≤ i := by positivity
  have r1 : Stands f (f.ofRat (i : ℚ)) i := by
    have := result_stands hf false (q := (i : ℚ)) (by rw [abs_of_nonneg hi0]; linarith)
    rwa [Fmt.srnd_self (prec_pos hf) b2] at this
  have hsub : 0 ≤ k - i := by linarith
  have r2 : Stands f (f.sub (.fin s m) (f.ofRat (i : ℚ))) (k - i) := by
    have := sub_stands hf hk r1 (by rw [abs_of_nonneg hsub]; linarith)
    rwa [Fmt.srnd_self (prec_pos hf) b1] at this
  refine ⟨f.sub (.fin s m) (f.ofRat (i : ℚ)), ?_, r2⟩
  have hfl : ⌊m⌋ = (i : Int) := by rw [hm', hi]
  have h64 : ¬ ((i : Int) ≥ 2 ^ 64) := by
    have : i < 2 ^ 64 := by omega
    have : (i : Int) < 2 ^ 64 := by exact_mod_cast this
    omega
  have hmod : (i + 1) % 2 ^ 64 = i + 1 := Nat.mod_eq_of_lt (by omega)
  have hge : ¬ (i + 1 ≥ l.length) := by omega
  simp only [interpolatedIndex, hne, Bool.false_eq_true, if_false, if_neg hlt, hfl, if_neg h64, Int.toNat_natCast, hmod,
    if_neg hge, hx, hy]

/-- Between two elements the result is the exact interpolation up to rounding. -/
theorem C104_index_between (f : Fmt) (hf : f = .double ∨ f = .single) (l : List Flt) (hl : l.length < 2 ^ 64) (key : Flt) (k : ℚ)
    (hk : Stands f key k) (h0 : 0 ≤ k) (i : Nat) (hi : ⌊k⌋ = i) (x y : Flt) (hx : l[i]? = some x) (hy : l[i + 1]? = some y)
    (a b M : ℚ) (hxa : Stands f x a) (hyb : Stands f y b) (ha : |a| ≤ M) (hb : |b| ≤ M) (hM : 4 * M ≤ f.maxVal) :
    ∃ r v, interpolatedIndex f l key = .ok r ∧ Stands f r v ∧
      |v - (a + (k - i) * (b - a))| ≤ 4 * M / 2 ^ f.prec + 2 * 2 ^ f.emin := by
  obtain ⟨w, hw, hq⟩ := interpolatedIndex_mid hf hk h0 hi hx hy hl
  have h1 : (i : ℚ) ≤ k := by have := Int.floor_le k; rw [hi] at this; simpa using this
  have h2 : k < i + 1 := by have := Int.lt_floor_add_one k; rw [hi] at this; simpa using this
  obtain ⟨v, hv, he⟩ := lerp_err hf hq (by linarith) (by linarith) hxa hyb ha hb hM
  refine ⟨_, v, hw, hv, ?_⟩
  have e : a + (k - i) * (b - a) = (1 - (k - i)) * a + (k - i) * b := by ring
  rw [e]; exact he

/-- At a whole index the result is the element, if the next one (if any) is finite. -/
theorem C104_index_at (f : Fmt) (hf : f = .double ∨ f = .single) (l : List Flt) (hl : l.length < 2 ^ 64) (key : Flt) (i : Nat)
    (hk : Stands f key i) (x : Flt) (hx : l[i]? = some x) (a : ℚ) (hxa : Stands f x a)
    (hy : ∀ y, l[i + 1]? = some y → ∃ b, Stands f y b) : ∃ r, interpolatedIndex f l key = .ok r ∧ Stands f r a := by
  have h0 : (0 : ℚ) ≤ i := by positivity
  have hi : ⌊(i : ℚ)⌋ = (i : Int) := Int.floor_natCast i
  cases h : l[i + 1]? with
  | some y =>
    obtain ⟨b, hb⟩ := hy y h
    obtain ⟨w, hw, hq⟩ := interpolatedIndex_mid hf hk h0 hi hx h hl
    rw [sub_self] at hq
    exact ⟨_, hw, lerp_zero hf hq hxa hb⟩
  | none =>
    refine ⟨x, ?_, hxa⟩
    obtain ⟨h1, h2⟩ := List.getElem?_eq_some_iff.1 hx
    have h3 := List.getElem?_eq_none_iff.1 h
    obtain ⟨s, m, rfl, hm⟩ := hk.fin
    have hm' : m = i := by
      cases s
      · simpa [Flt.val] using hm
      · have := hk.1.1
        simp [Flt.val] at hm
        linarith
    have hlt : ¬ (Flt.fin s m).lt (.fin false 0) = true := by
      rw [lt_stands hk (zero_stands f hf false)]; exact not_lt.2 h0
    have hne : l.isEmpty = false := by
      cases l with
      | nil => simp at hx
      | cons => rfl
    have h64 : ¬ ((i : Int) ≥ 2 ^ 64) := by
      have : i < 2 ^ 64 := by omega
      have : (i : Int) < 2 ^ 64 := by exact_mod_cast this
      omega
    have hmod : (i + 1) % 2 ^ 64 = i + 1 := Nat.mod_eq_of_lt (by omega)
    have e : l.length - 1 = i := by omega
    have hfl : ⌊m⌋ = (i : Int) := by rw [hm', hi]
    simp only [interpolatedIndex, hne, Bool.false_eq_true, if_false, if_neg hlt, hfl, if_neg h64, Int.toNat_natCast, hmod,
      ge_iff_le, if_pos h3, e, hx]

/-- Below zero, also for minus infinity, the result is the first element; from the last index on, the last one, whatever they are. -/
theorem C104_index_outside (f : Fmt) (hf : f = .double ∨ f = .single) (l : List Flt) (hl : l.length < 2 ^ 64) (first last : Flt)
    (h1 : l.head? = some first) (h2 : l.getLast? = some last) (key : Flt) :
    (Below key (.fin false 0) → interpolatedIndex f l key = .ok first) ∧
    (∀ k : ℚ, Stands f key k → (l.length : ℚ) - 1 ≤ k → k < 2 ^ 64 - 1 → interpolatedIndex f l key = .ok last) := by
  have hne : l.isEmpty = false := by
    cases l with
    | nil => simp at h1
    | cons => rfl
  have hpos : 0 < l.length := by
    cases l with
    | nil => simp at h1
    | cons => simp
  constructor
  · intro hb
    have := lt_iff.2 hb
    rw [List.head?_eq_getElem?] at h1
    simp only [interpolatedIndex, hne, Bool.false_eq_true, if_false, this, if_true, h1]
  · intro k hk hge hlt
    obtain ⟨s, m, rfl, hm⟩ := hk.fin
    have h0 : 0 ≤ k := by
      have : (1 : ℚ) ≤ l.length := by exact_mod_cast hpos
      linarith
    have hm' : m = k := by
      cases s
      · simpa [Flt.val] using hm
      · have := hk.1.1
        simp [Flt.val] at hm
        linarith
    have hlt' : ¬ (Flt.fin s m).lt (.fin false 0) = true := by
      rw [lt_stands hk (zero_stands f hf false)]; exact not_lt.2 h0
    have f1 : ⌊m⌋ < 2 ^ 64 - 1 := by
      rw [hm', Int.floor_lt]; exact_mod_cast hlt
    have f2 : (l.length : Int) - 1 ≤ ⌊m⌋ := by
      rw [hm', Int.le_floor]; exact_mod_cast hge
    have f0 : 0 ≤ ⌊m⌋ := by rw [hm']; exact floor_rat_nonneg h0
    obtain ⟨i, hi⟩ := Int.eq_ofNat_of_zero_le f0
    rw [hi] at f1 f2
    have h64 : ¬ ((i : Int) ≥ 2 ^ 64) := by omega
    have hi64 : (i : Int) + 1 < 2 ^ 64 := by omega
    have hmod : (i + 1) % 2 ^ 64 = i + 1 := Nat.mod_eq_of_lt (by exact_mod_cast hi64)
    have hgel : l.length ≤ i + 1 := by omega
    rw [List.getLast?_eq_getElem?] at h2
    simp only [interpolatedIndex, hne, Bool.false_eq_true, if_false, if_neg hlt', hi, if_neg h64, Int.toNat_natCast, hmod,
      ge_iff_le, if_pos hgel, h2]

/-- An index that is not a number, infinite or beyond 2^64 is undefined behaviour. -/
theorem C104_index_undefined (f : Fmt) (l : List Flt) (hl : l ≠ []) (s : Bool) (m : ℚ) (hm : 2 ^ 64 ≤ m) :
    interpolatedIndex f l (.nan s) = .ub ∧ interpolatedIndex f l (.inf false) = .ub ∧
    interpolatedIndex f l (.fin false m) = .ub := by
  have hne : l.isEmpty = false := by cases l <;> simp_all
  have hf : ⌊m⌋ ≥ 2 ^ 64 := by
    rw [ge_iff_le, Int.le_floor]; exact_mod_cast hm
  have h0 : ¬ m < 0 := by linarith [(by norm_num : (0 : ℚ) < 2 ^ 64)]
  refine ⟨?_, ?_, ?_⟩
  · simp [interpolatedIndex, hne, Flt.lt]
  · simp [interpolatedIndex, hne, Flt.lt]
  · simp [interpolatedIndex, hne, Flt.lt, h0]
    intro h
    exact absurd hf (not_le.2 h)

/-- At a whole index the element is lost if the next one is infinite. -/
theorem C104_index_poison_refuted (f : Fmt) (hf : f = .double ∨ f = .single) (l : List Flt) (hl : l.length < 2 ^ 64) (key : Flt) (i : Nat)
    (hk : Stands f key i) (x : Flt) (hx : l[i]? = some x) (a : ℚ) (hxa : Stands f x a) (s : Bool)
    (hy : l[i + 1]? = some (.inf s)) : ∃ z, interpolatedIndex f l key = .ok (.nan z) := by
  have h0 : (0 : ℚ) ≤ i := by positivity
  obtain ⟨w, hw, hq⟩ := interpolatedIndex_mid hf hk h0 (Int.floor_natCast i) hx hy hl
  rw [sub_self] at hq
  obtain ⟨s', m, rfl, hm⟩ := hq.fin
  have : m = 0 := by cases s' <;> simpa [Flt.val] using hm
  subst this
  rw [hw]
  refine ⟨false, ?_⟩
  have e : f.mul (.fin s' 0) (.inf s) = .nan false := by simp [Fmt.mul]
  rw [lerp, e]
  rcases f.mul (f.sub (.fin false 1) (.fin s' 0)) x with ⟨_, _⟩ | ⟨_⟩ | _ <;> rfl

/-- Between two equal elements the result may be another number, above them. -/
theorem C104_constant_refuted : ∃ x v : Flt, ∃ key, interpolatedIndex .double [x, x] key = .ok v ∧ Below x v ∧
    IsFloat .double x ∧ IsFloat .double key := by
  refine ⟨.fin false (7505999378950827 / 2 ^ 52), .fin false (7505999378950828 / 2 ^ 52), .fin false (5 / 2 ^ 4),
    by decide +kernel, ?_, ?_, ?_⟩
  · rw [← lt_iff]; simp [Flt.lt]; norm_num
  · exact (stands_double false (n := 7505999378950827) (e := 52) (by norm_num) (by norm_num)).1
  · exact (stands_double false (n := 5) (e := 4) (by norm_num) (by norm_num)).1

/-- An array and an index with which the hypotheses are met. -/
example : ∃ r v, interpolatedIndex .double [.fin false (1 / 2 ^ 0), .fin false (3 / 2 ^ 0)] (.fin false (1 / 2 ^ 1)) = .ok r ∧
    Stands .double r v ∧ |v - (1 + (1 / 2 - 0) * (3 - 1))| ≤ 4 * 3 / 2 ^ 53 + 2 * 2 ^ (-1074 : Int) := by
  have hk := stands_double false (n := 1) (e := 1) (by norm_num) (by norm_num)
  have ha := stands_double false (n := 1) (e := 0) (by norm_num) (by norm_num)
  have hb := stands_double false (n := 3) (e := 0) (by norm_num) (by norm_num)
  have hm : (4 : ℚ) * 3 ≤ Fmt.double.maxVal := by decide +kernel
  norm_num at hk ha hb
  have e : ∀ x : ℚ, x / 2 ^ 0 = x := by norm_num
  have e' : (1 : ℚ) / 2 ^ 1 = 1 / 2 := by norm_num
  rw [e, e, e']
  obtain ⟨r, v, h⟩ := C104_index_between .double (.inl rfl) [.fin false 1, .fin false 3] (by norm_num) (.fin false (1 / 2)) (1 / 2)
    hk (by norm_num) 0 (by norm_num) (.fin false 1) (.fin false 3) rfl rfl 1 3 3 ha hb (by norm_num) (by norm_num) hm
  refine ⟨r, v, h.1, h.2.1, ?_⟩
  have := h.2.2
  rw [Nat.cast_zero] at this
  exact this

/-- An array and an index that the theorems apply to, with the result. -/
example : interpolatedIndex .double [.fin false 1, .fin false 3, .fin true 2] (.fin false (3 / 2)) = .ok (.fin false (1 / 2)) := by
  decide +kernel

/-! ### By key -/

/-- The error of the weight. -/
theorem weight_arith {d1 d2 D1 D2 u : ℚ} (h0 : 0 ≤ d1) (h2 : 0 < d2) (hu0 : 0 < u) (hu : u ≤ 1 / 1000)
    (e1 : |D1 - d1| ≤ d1 * u) (e2 : |D2 - d2| ≤ d2 * u) : 0 < D2 ∧ |D1 / D2 - d1 / d2| ≤ 3 * u * (d1 / d2) := by
  have g1 := (abs_le.1 e2).1
  have hd2u : d2 * u ≤ d2 * (1 / 1000) := mul_le_mul_of_nonneg_left hu h2.le
  have hD2 : 999 / 1000 * d2 ≤ D2 := by linarith
  have hD2p : 0 < D2 := by linarith
  refine ⟨hD2p, ?_⟩
  have e : D1 / D2 - d1 / d2 = ((D1 - d1) * d2 - d1 * (D2 - d2)) / (D2 * d2) := by
    field_simp
    ring
  rw [e, abs_div, abs_of_pos (mul_pos hD2p h2), div_le_iff₀ (mul_pos hD2p h2)]
  have t := abs_sub ((D1 - d1) * d2) (d1 * (D2 - d2))
  have t1 : |(D1 - d1) * d2| ≤ d1 * u * d2 := by
    rw [abs_mul, abs_of_pos h2]; exact mul_le_mul_of_nonneg_right e1 h2.le
  have t2 : |d1 * (D2 - d2)| ≤ d1 * (d2 * u) := by
    rw [abs_mul, abs_of_nonneg h0]; exact mul_le_mul_of_nonneg_left e2 h0
  have e3 : 3 * u * (d1 / d2) * (D2 * d2) = 3 * u * d1 * D2 := by field_simp
  rw [e3]
  have t3 : 3 * u * d1 * (999 / 1000 * d2) ≤ 3 * u * d1 * D2 := mul_le_mul_of_nonneg_left hD2 (by positivity)
  have t4 : 0 ≤ u * d1 * d2 := by positivity
  nlinarith

theorem findIdx_at {α : Type} {p : α → Bool} {l : List α} {i : Nat} {y : α} (hy : l[i]? = some y) (hp : p y = true)
    (h : ∀ j z, j < i → l[j]? = some z → p z = false) : l.findIdx p = i := by
  obtain ⟨hi, he⟩ := List.getElem?_eq_some_iff.1 hy
  apply (List.findIdx_eq hi).2
  refine ⟨by rw [he]; exact hp, ?_⟩
  intro j hj
  exact h j _ hj (List.getElem?_eq_getElem (by omega))

/-- Keys in increasing order. -/
def Increasing (l : List (Flt × Flt)) : Prop := l.Pairwise fun p q => Below p.1 q.1

theorem increasing_before {l : List (Flt × Flt)} (hs : Increasing l) {i j : Nat} {p q : Flt × Flt} (hp : l[i]? = some p)
    (hq : l[j]? = some q) (hij : i < j) : Below p.1 q.1 := by
  obtain ⟨h1, rfl⟩ := List.getElem?_eq_some_iff.1 hp
  obtain ⟨h2, rfl⟩ := List.getElem?_eq_some_iff.1 hq
  exact List.pairwise_iff_getElem.1 hs i j h1 h2 hij

/-- What `interpolatedKey` does with a key from that of one sample up to that of the next. -/
theorem interpolatedKey_mid {f : Fmt} {l : List (Flt × Flt)} (hs : Increasing l) {key : Flt} {i : Nat} {p q : Flt × Flt}
    (hp : l[i]? = some p) (hq : l[i + 1]? = some q) (h1 : AtMost p.1 key) (h2 : Below key q.1) :
    interpolatedKey f l key = .ok (lerp f (f.div (f.sub key p.1) (f.sub q.1 p.1)) p.2 q.2) := by
  have hidx : l.findIdx (fun e => key.lt e.1) = i + 1 := by
    apply findIdx_at hq (lt_iff.2 h2)
    intro j z hj hz
    rw [Bool.eq_false_iff]
    intro hc
    have hc' := lt_iff.1 hc
    have : AtMost z.1 p.1 := by
      rcases Nat.lt_succ_iff_lt_or_eq.1 hj with h | rfl
      · exact (increasing_before hs hz hp h).atMost
      · rw [hp] at hz; cases hz
        obtain ⟨x, y, hx, _⟩ := h1
        exact ⟨x, x, hx, hx, le_rfl⟩
    exact not_below h1 (hc'.trans_atMost this)
  obtain ⟨hi, -⟩ := List.getElem?_eq_some_iff.1 hq
  have hne : l.isEmpty = false := by
    cases l with
    | nil => simp at hq
    | cons => rfl
  have h3 : ¬ (i + 1 = l.length) := by omega
  simp only [interpolatedKey, hne, Bool.false_eq_true, if_false, hidx, if_neg h3, Nat.add_one_ne_zero, Nat.add_sub_cancel, hp, hq]

/-- Between two samples the result is the exact interpolation up to rounding. -/
theorem C104_key_between (f : Fmt) (hf : f = .double ∨ f = .single) (l : List (Flt × Flt)) (hs : Increasing l) (key : Flt) (k : ℚ)
    (hk : Stands f key k) (i : Nat) (k0 x k1 y : Flt) (hp : l[i]? = some (k0, x)) (hq : l[i + 1]? = some (k1, y))
    (c0 c1 a b M : ℚ) (hk0 : Stands f k0 c0) (hk1 : Stands f k1 c1) (hxa : Stands f x a) (hyb : Stands f y b)
    (h1 : c0 ≤ k) (h2 : k < c1) (hd : c1 - c0 ≤ f.maxVal) (ha : |a| ≤ M) (hb : |b| ≤ M) (hM : 4 * M ≤ f.maxVal) :
    ∃ r v, interpolatedKey f l key = .ok r ∧ Stands f r v ∧
      |v - (a + (k - c0) / (c1 - c0) * (b - a))| ≤ 12 * M / 2 ^ f.prec + (2 * M + 2) * 2 ^ f.emin := by
  have hp' := prec_pos hf
  have hpos0 : AtMost k0 key := le_iff.1 ((le_stands hk0 hk).2 h1)
  have hpos1 : Below key k1 := lt_iff.1 ((lt_stands hk hk1).2 h2)
  have hmid := interpolatedKey_mid (f := f) hs hp hq hpos0 hpos1
  obtain ⟨n1, n2, n3, n4⟩ := fmt_consts hf
  have hM0 : 0 ≤ M := (abs_nonneg a).trans ha
  have hu0 : (0 : ℚ) < 1 / 2 ^ f.prec := by positivity
  have hu2 : 1 / (2 : ℚ) ^ f.prec ≤ 1 / 1000 := one_div_le_one_div_of_le (by norm_num) (le_trans (by norm_num) n1)
  have hdiv : ∀ z : ℚ, z / 2 ^ f.prec = z * (1 / 2 ^ f.prec) := by intro z; ring
  generalize 1 / (2 : ℚ) ^ f.prec = u at hu0 hu2 hdiv
  have hmax : 1000 ≤ f.maxVal := le_trans (by norm_num) n4
  -- differences
  have hd1 : 0 ≤ k - c0 := by linarith
  have hd2 : 0 < c1 - c0 := by linarith
  have s1 := sub_stands hf hk hk0 (by rw [abs_of_nonneg hd1]; linarith)
  have s2 := sub_stands hf hk1 hk0 (by rw [abs_of_pos hd2]; linarith)
  have e1 : |f.srnd (k - c0) - (k - c0)| ≤ (k - c0) * u := by
    have := srnd_rel (f := f) hp' (q := k - c0) (by
      rw [sub_eq_add_neg]; exact multiple_add (binary_mul hk.binary) (multiple_neg (binary_mul hk0.binary)))
    rwa [hdiv, abs_of_nonneg hd1] at this
  have e2 : |f.srnd (c1 - c0) - (c1 - c0)| ≤ (c1 - c0) * u := by
    have := srnd_rel (f := f) hp' (q := c1 - c0) (by
      rw [sub_eq_add_neg]; exact multiple_add (binary_mul hk1.binary) (multiple_neg (binary_mul hk0.binary)))
    rwa [hdiv, abs_of_pos hd2] at this
  have hm : f.srnd (k - c0) ≤ f.srnd (c1 - c0) := Fmt.srnd_mono hp' (by linarith)
  have hz : 0 ≤ f.srnd (k - c0) := srnd_pos_le hd1
  generalize f.srnd (k - c0) = D1 at s1 e1 hm hz
  generalize f.srnd (c1 - c0) = D2 at s2 e2 hm
  obtain ⟨w1, w2⟩ := weight_arith hd1 hd2 hu0 hu2 e1 e2
  -- the weight
  have hq0 : 0 ≤ D1 / D2 := div_nonneg hz w1.le
  have hq1 : D1 / D2 ≤ 1 := (div_le_one w1).2 hm
  have s3 := div_stands hf s1 s2 w1.ne' (by rw [abs_of_nonneg hq0]; linarith)
  have e3 := srnd_err (f := f) (D1 / D2)
  rw [hdiv, abs_of_nonneg hq0] at e3
  have g0 : 0 ≤ f.srnd (D1 / D2) := srnd_pos_le hq0
  have g1 : f.srnd (D1 / D2) ≤ 1 := Fmt.srnd_le hp' (one_stands hf).binary hq1
  obtain ⟨v, hv, he⟩ := lerp_err hf s3 g0 g1 hxa hyb ha hb hM
  refine ⟨_, v, hmid, hv, ?_⟩
  rw [hdiv] at he ⊢
  generalize f.srnd (D1 / D2) = W at s3 e3 g0 g1 he hv
  -- the error of the weight
  have ht0 : 0 ≤ (k - c0) / (c1 - c0) := div_nonneg hd1 hd2.le
  have ht1 : (k - c0) / (c1 - c0) ≤ 1 := (div_le_one hd2).2 (by linarith)
  generalize (k - c0) / (c1 - c0) = t at w2 ht0 ht1
  have ew : |W - t| ≤ 4 * u + 2 ^ f.emin := by
    have tr := abs_add_le (W - D1 / D2) (D1 / D2 - t)
    have e : W - D1 / D2 + (D1 / D2 - t) = W - t := by ring
    rw [e] at tr
    have b1 : D1 / D2 * u ≤ 1 * u := mul_le_mul_of_nonneg_right hq1 hu0.le
    have b2 : 3 * u * t ≤ 3 * u * 1 := mul_le_mul_of_nonneg_left ht1 (by positivity)
    linarith
  have hab : |b - a| ≤ 2 * M := by
    have := abs_sub b a
    linarith
  have es : |(W - t) * (b - a)| ≤ (4 * u + 2 ^ f.emin) * (2 * M) := by
    rw [abs_mul]
    exact mul_le_mul ew hab (abs_nonneg _) (by positivity)
  have e : v - (a + t * (b - a)) = (v - ((1 - W) * a + W * b)) + (W - t) * (b - a) := by ring
  rw [e]
  have tr := abs_add_le (v - ((1 - W) * a + W * b)) ((W - t) * (b - a))
  have e' : (4 * u + 2 ^ f.emin) * (2 * M) = 8 * (M * u) + 2 * M * 2 ^ f.emin := by ring
  have e'' : 4 * M * u = 4 * (M * u) := by ring
  have e''' : 12 * M * u + (2 * M + 2) * 2 ^ f.emin = 12 * (M * u) + 2 * M * 2 ^ f.emin + 2 * 2 ^ f.emin := by ring
  rw [e''']
  rw [e'] at es
  rw [e''] at he
  linarith

/-- At the key of a sample the result is its value, if the next sample (if any) is finite. -/
theorem C104_key_at (f : Fmt) (hf : f = .double ∨ f = .single) (l : List (Flt × Flt)) (hs : Increasing l) (key : Flt) (i : Nat)
    (k0 x : Flt) (hp : l[i]? = some (k0, x)) (c a : ℚ) (hk : Stands f key c) (hk0 : Stands f k0 c) (hxa : Stands f x a)
    (hq : ∀ k1 y, l[i + 1]? = some (k1, y) → (∃ c1, Stands f k1 c1 ∧ c1 - c ≤ f.maxVal) ∧ ∃ b, Stands f y b) :
    ∃ r, interpolatedKey f l key = .ok r ∧ Stands f r a := by
  have hle : AtMost k0 key := le_iff.1 ((le_stands hk0 hk).2 le_rfl)
  cases h : l[i + 1]? with
  | some q =>
    obtain ⟨k1, y⟩ := q
    obtain ⟨⟨c1, hk1, hd⟩, b, hb⟩ := hq k1 y h
    have hlt : c < c1 := (lt_stands hk0 hk1).1 (lt_iff.2 (increasing_before hs hp h (by omega)))
    have hmid := interpolatedKey_mid (f := f) hs hp h hle (lt_iff.1 ((lt_stands hk hk1).2 hlt))
    refine ⟨_, hmid, lerp_zero hf ?_ hxa hb⟩
    have hmax : 0 ≤ f.maxVal := le_trans (abs_nonneg _) hk.abs_le
    have s1 := sub_stands hf hk hk0 (by rw [sub_self, abs_zero]; exact hmax)
    rw [sub_self, Fmt.srnd_zero] at s1
    have s2 := sub_stands hf hk1 hk0 (by rw [abs_of_pos (by linarith)]; exact hd)
    have hpos : 0 < f.srnd (c1 - c) := by
      rw [sub_eq_add_neg]
      exact srnd_sum_pos (prec_pos hf) hk1.binary (Fmt.isBinary_neg hk0.binary) (by linarith)
    have s3 := div_stands hf s1 s2 hpos.ne' (by rw [zero_div, abs_zero]; exact hmax)
    rwa [zero_div, Fmt.srnd_zero] at s3
  | none =>
    refine ⟨x, ?_, hxa⟩
    obtain ⟨h1, -⟩ := List.getElem?_eq_some_iff.1 hp
    have h3 := List.getElem?_eq_none_iff.1 h
    have hidx : l.findIdx (fun e => key.lt e.1) = l.length := by
      rw [List.findIdx_eq_length]
      intro z hz
      obtain ⟨j, hj⟩ := List.mem_iff_getElem?.1 hz
      obtain ⟨hj1, -⟩ := List.getElem?_eq_some_iff.1 hj
      rw [Bool.eq_false_iff]
      intro hc
      have : AtMost z.1 k0 := by
        rcases Nat.lt_or_ge j i with h' | h'
        · exact (increasing_before hs hj hp h').atMost
        · have : j = i := by omega
          subst this
          rw [hp] at hj; cases hj
          obtain ⟨x, y, hx, _⟩ := hle
          exact ⟨x, x, hx, hx, le_rfl⟩
      exact not_below hle ((lt_iff.1 hc).trans_atMost this)
    have hne : l.isEmpty = false := by
      cases l with
      | nil => simp at hp
      | cons => rfl
    have e : l.length - 1 = i := by omega
    simp only [interpolatedKey, hne, Bool.false_eq_true, if_false, hidx, if_true, e, hp]

/-- Before the first key the result is the first value, from the last key on the last one, whatever they are; also the last one
for a key that is not a number. -/
theorem C104_key_outside (f : Fmt) (l : List (Flt × Flt)) (hs : Increasing l) (first last : Flt × Flt)
    (h1 : l.head? = some first) (h2 : l.getLast? = some last) (key : Flt) :
    (Below key first.1 → interpolatedKey f l key = .ok first.2) ∧
    (AtMost last.1 key → interpolatedKey f l key = .ok last.2) ∧
    (¬ IsNumber key → interpolatedKey f l key = .ok last.2) := by
  have hne : l.isEmpty = false := by
    cases l with
    | nil => simp at h1
    | cons => rfl
  rw [List.head?_eq_getElem?] at h1
  rw [List.getLast?_eq_getElem?] at h2
  have hend : (∀ z ∈ l, key.lt z.1 = false) → interpolatedKey f l key = .ok last.2 := by
    intro h
    have hidx : l.findIdx (fun e => key.lt e.1) = l.length := List.findIdx_eq_length.2 h
    simp only [interpolatedKey, hne, Bool.false_eq_true, if_false, hidx, if_true, h2]
  refine ⟨?_, ?_, ?_⟩
  · intro hb
    have hidx : l.findIdx (fun e => key.lt e.1) = 0 := findIdx_at h1 (lt_iff.2 hb) (by intro j z hj; omega)
    have h3 : ¬ (0 = l.length) := by
      cases l with
      | nil => simp at h1
      | cons => simp
    simp only [interpolatedKey, hne, Bool.false_eq_true, if_false, hidx, if_neg h3, if_true, h1]
  · intro hle
    apply hend
    intro z hz
    obtain ⟨j, hj⟩ := List.mem_iff_getElem?.1 hz
    obtain ⟨hj1, -⟩ := List.getElem?_eq_some_iff.1 hj
    rw [Bool.eq_false_iff]
    intro hc
    have : AtMost z.1 last.1 := by
      rcases Nat.lt_or_ge j (l.length - 1) with h' | h'
      · exact (increasing_before hs hj h2 h').atMost
      · have : j = l.length - 1 := by omega
        subst this
        rw [h2] at hj; cases hj
        obtain ⟨x, y, hx, _⟩ := hle
        exact ⟨x, x, hx, hx, le_rfl⟩
    exact not_below hle ((lt_iff.1 hc).trans_atMost this)
  · intro hn
    apply hend
    intro z _
    rw [Bool.eq_false_iff]
    intro hc
    obtain ⟨x, y, hx, _⟩ := lt_iff.1 hc
    exact hn ⟨x, hx⟩

/-- Samples that the theorems apply to, with the result. -/
example : Increasing [(.fin false 0, .fin false 1), (.fin false 2, .fin false 5)] ∧
    interpolatedKey .double [(.fin false 0, .fin false 1), (.fin false 2, .fin false 5)] (.fin false (1 / 2)) = .ok (.fin false 2) := by
  refine ⟨?_, by decide +kernel⟩
  simp [Increasing]
  rw [← lt_iff]; simp [Flt.lt]

end Flut
