import Verif.Proofs.Random
import Verif.Props.FloatProducts

/-! # Property theorems: uniform random numbers (C115) -/

namespace Flut

open Spec FloatMath Random

theorem stands_rat {f : Fmt} (hf : f = .double ∨ f = .single) {q : ℚ} (h : |q| ≤ f.maxVal) : Stands f (f.ofRat q) (f.srnd q) :=
  result_stands hf false h

/-- A number below one is at most the number before one. -/
theorem binary_lt_one {p : Nat} {e : Int} {x : ℚ} (hp : 1 ≤ p) (h : IsBinary p e x) (h1 : x < 1) : x ≤ 1 - 1 / 2 ^ p := by
  obtain ⟨n, k, hn, hk, rfl⟩ := h
  have h2 : (0 : ℚ) < 2 ^ p := by positivity
  have hle : (1 : ℚ) / 2 ^ p ≤ 1 / 2 := by
    apply one_div_le_one_div_of_le (by norm_num)
    calc (2 : ℚ) = 2 ^ 1 := by norm_num
      _ ≤ 2 ^ p := pow_le_pow_right₀ (by norm_num) hp
  rcases le_or_gt (-(p : Int)) k with hc | hc
  · have e1 : (2 : ℚ) ^ k = 2 ^ (k + p).toNat / 2 ^ p := by
      rw [eq_div_iff h2.ne', ← zpow_natCast, ← zpow_natCast, ← zpow_add₀ (by norm_num)]
      congr 1
      omega
    rw [e1, ← mul_div_assoc, div_lt_one h2] at h1
    have h3 : n * 2 ^ (k + p).toNat < 2 ^ p := by exact_mod_cast h1
    have h4 : n * 2 ^ (k + p).toNat ≤ 2 ^ p - 1 := by omega
    have h5 : ((n * 2 ^ (k + p).toNat : Int) : ℚ) ≤ ((2 ^ p - 1 : Int) : ℚ) := by exact_mod_cast h4
    push_cast at h5
    rw [e1, ← mul_div_assoc, div_le_iff₀ h2, sub_mul, one_mul, one_div, inv_mul_cancel₀ h2.ne']
    exact h5
  · have e1 : (2 : ℚ) ^ k ≤ 2 ^ (-(p : Int) - 1) := zpow_le_zpow_right₀ (by norm_num) (by omega)
    have e2 : (2 : ℚ) ^ (-(p : Int) - 1) = 1 / 2 ^ p / 2 := by
      rw [zpow_sub₀ (by norm_num), zpow_neg, zpow_natCast]; norm_num
    have hn' : |(n : ℚ)| ≤ 2 ^ p := by exact_mod_cast hn.le
    have h3 : (n : ℚ) * 2 ^ k ≤ 2 ^ p * (1 / 2 ^ p / 2) := by
      rw [← e2]
      exact mul_le_mul ((le_abs_self _).trans hn') e1 (by positivity) (by positivity)
    have e3 : (2 : ℚ) ^ p * (1 / 2 ^ p / 2) = 1 / 2 := by field_simp
    linarith

/-- How often the engine is called for one number. -/
def drawsOf (f : Fmt) : Nat := if f = .double then 2 else 1

theorem srnd_bound {f : Fmt} (hf : f = .double ∨ f = .single) {q : ℚ} {j : Nat} (h0 : 0 ≤ q) (h : q ≤ 2 ^ j) : 0 ≤ f.srnd q ∧ f.srnd q ≤ 2 ^ j :=
  ⟨srnd_pos_le h0, Fmt.srnd_le (prec_pos hf) (pow_binary hf j) h⟩

theorem max100 {f : Fmt} (hf : f = .double ∨ f = .single) {q : ℚ} {j : Nat} (h0 : 0 ≤ q) (h : q ≤ 2 ^ j) (hj : j ≤ 100) : |q| ≤ f.maxVal := by
  obtain ⟨-, -, -, hM⟩ := fmt_consts hf
  rw [abs_of_nonneg h0]
  exact h.trans ((pow_le_pow_right₀ (by norm_num) hj).trans hM)

/-- The numbers in the loop stay in range. -/
theorem loop_step {f : Fmt} (hf : f = .double ∨ f = .single) {sum tmp : Flt} {S T : ℚ} {i j x : Nat} (hs : Stands f sum S) (ht : Stands f tmp T)
    (hS0 : 0 ≤ S) (hS : S ≤ 2 ^ i) (hT1 : 1 ≤ T) (hT : T ≤ 2 ^ j) (hij : i ≤ j + 31) (hj : j ≤ 60) (hx : x ≤ 2 ^ 31) :
    ∃ S' T', Stands f (f.add sum (f.mul (f.ofRat (x : ℚ)) tmp)) S' ∧ Stands f (f.ofRat (tmp.val * 2147483646)) T' ∧ 0 ≤ S' ∧ S' ≤ 2 ^ (j + 32) ∧
      1 ≤ T' ∧ T' ≤ 2 ^ (j + 31) := by
  have x0 : (0 : ℚ) ≤ x := Nat.cast_nonneg x
  have x1 : (x : ℚ) ≤ 2 ^ 31 := by exact_mod_cast hx
  have a := stands_rat hf (max100 hf x0 x1 (by norm_num))
  obtain ⟨a0, a1⟩ := srnd_bound hf x0 x1
  have T0 : 0 ≤ T := by linarith
  have p0 : 0 ≤ f.srnd x * T := mul_nonneg a0 T0
  have p1 : f.srnd x * T ≤ 2 ^ (j + 31) := by
    calc f.srnd x * T ≤ 2 ^ 31 * 2 ^ j := mul_le_mul a1 hT T0 (by positivity)
      _ = 2 ^ (j + 31) := by rw [← pow_add, Nat.add_comm]
  have b := mul_stands hf a ht (max100 hf p0 p1 (by omega))
  obtain ⟨b0, b1⟩ := srnd_bound hf p0 p1
  have s0 : 0 ≤ S + f.srnd (f.srnd x * T) := add_nonneg hS0 b0
  have s1 : S + f.srnd (f.srnd x * T) ≤ 2 ^ (j + 32) := by
    have := pow_le_pow_right₀ (by norm_num : (1 : ℚ) ≤ 2) hij
    have e : (2 : ℚ) ^ (j + 32) = 2 ^ (j + 31) + 2 ^ (j + 31) := by ring
    rw [e]
    linarith
  have c := add_stands hf hs b (max100 hf s0 s1 (by omega))
  obtain ⟨c0, c1⟩ := srnd_bound hf s0 s1
  have t0 : 0 ≤ T * 2147483646 := by positivity
  have t1 : T * 2147483646 ≤ 2 ^ (j + 31) := by
    calc T * 2147483646 ≤ 2 ^ j * 2 ^ 31 := mul_le_mul hT (by norm_num) (by norm_num) (by positivity)
      _ = 2 ^ (j + 31) := by rw [← pow_add]
  have d := stands_rat hf (max100 hf t0 t1 (by omega))
  have hv : tmp.val = T := by obtain ⟨s, m, rfl, e⟩ := ht.fin; exact e
  refine ⟨_, _, c, by rw [hv]; exact d, c0, c1, ?_, (srnd_bound hf t0 t1).2⟩
  exact Fmt.le_srnd (prec_pos hf) (by simpa using pow_binary hf 0) (by linarith)

/-- `generate_canonical` gives a number from zero to below one, and calls the engine twice for a `double` and once for a `float`. -/
theorem canonical_range {f : Fmt} (hf : f = .double ∨ f = .single) {x : Nat} (hx : 1 ≤ x ∧ x < 2147483647) :
    ∃ u, Stands f (canonical f x).1 u ∧ 0 ≤ u ∧ u ≤ 1 - 1 / 2 ^ f.prec ∧ (canonical f x).2 = next^[drawsOf f] x := by
  have hz := zero_stands f hf false
  have ho := one_stands hf
  have key : ∃ S T, Stands f (canonicalLoop f (max 1 ((f.prec + 30 - 1) / 30)) (.fin false 0) (.fin false 1) x).1 S ∧
      Stands f (canonicalLoop f (max 1 ((f.prec + 30 - 1) / 30)) (.fin false 0) (.fin false 1) x).2.1 T ∧ 0 ≤ S ∧ S ≤ 2 ^ 63 ∧ 1 ≤ T ∧
      (canonicalLoop f (max 1 ((f.prec + 30 - 1) / 30)) (.fin false 0) (.fin false 1) x).2.2 = next^[drawsOf f] x := by
    obtain ⟨S, T, h1, h2, h3, h4, h5, h6⟩ := loop_step hf (i := 0) (j := 0) (x := next x - 1) hz ho le_rfl (by norm_num) le_rfl (by norm_num)
      (by norm_num) (by norm_num) (by have := (next_range hx).2; omega)
    rcases hf with rfl | rfl
    · obtain ⟨S', T', k1, k2, k3, k4, k5, k6⟩ := loop_step (.inl rfl) (i := 32) (j := 31) (x := next (next x) - 1) h1 h2 h3 h4 h5 h6
        (by norm_num) (by norm_num) (by have := (next_range (next_range hx)).2; omega)
      exact ⟨S', T', k1, k2, k3, k4, k5, rfl⟩
    · exact ⟨S, T, h1, h2, h3, h4.trans (by norm_num), h5, rfl⟩
  obtain ⟨S, T, hS, hT, S0, S1, T1, e⟩ := key
  unfold canonical
  generalize canonicalLoop f (max 1 ((f.prec + 30 - 1) / 30)) (.fin false 0) (.fin false 1) x = r at *
  obtain ⟨sum, tmp, x'⟩ := r
  simp only at hS hT e ⊢
  have q0 : 0 ≤ S / T := div_nonneg S0 (by linarith)
  have q1 : S / T ≤ 2 ^ 63 := (div_le_self S0 T1).trans S1
  have hd := div_stands hf hS hT (by linarith) (max100 hf q0 q1 (by norm_num))
  have hp : (1 : ℚ) / 2 ^ f.prec ≤ 1 := by
    rw [div_le_one (by positivity)]
    exact one_le_pow₀ (by norm_num)
  by_cases h1 : (Flt.fin false 1).le (f.div sum tmp) = true
  · rw [if_pos h1]
    refine ⟨1 - 1 / 2 ^ f.prec, ?_, by linarith, le_rfl, e⟩
    have hb : IsBinary f.prec f.emin (1 - 1 / 2 ^ f.prec) := by
      refine ⟨2 ^ f.prec - 1, -(f.prec : Int), ?_, by rcases hf with rfl | rfl <;> decide, ?_⟩
      · rw [abs_of_nonneg]
        · linarith
        · have : (1 : Int) ≤ 2 ^ f.prec := one_le_pow₀ (by norm_num)
          linarith
      · rw [zpow_neg, zpow_natCast]
        push_cast
        field_simp
    refine ⟨⟨by linarith, ?_, hb⟩, rfl⟩
    obtain ⟨-, -, -, hM⟩ := fmt_consts hf
    have h3 : (0 : ℚ) < 1 / 2 ^ f.prec := by positivity
    linarith [(by norm_num : (1 : ℚ) ≤ 2 ^ 100)]
  · rw [if_neg h1]
    refine ⟨_, hd, srnd_pos_le q0, ?_, e⟩
    apply binary_lt_one (prec_pos hf) hd.binary
    by_contra hc
    exact h1 ((le_stands ho hd).2 (not_lt.1 hc))

/-- Scaling by a factor below one undoes a difference that was rounded up. -/
theorem scaled_le {f : Fmt} (hf : f = .double ∨ f = .single) {q u : ℚ} (hq : ∃ n : Int, q = n * 2 ^ f.emin) (h0 : 0 ≤ q) (hu0 : 0 ≤ u)
    (hu1 : u ≤ 1 - 1 / 2 ^ f.prec) : f.srnd (u * f.srnd q) ≤ q := by
  obtain ⟨h24, hn0, hn, hM⟩ := fmt_consts hf
  have hp := prec_pos hf
  have hv : (0 : ℚ) < 1 / 2 ^ f.prec := by positivity
  by_contra hc
  have hc := not_le.1 hc
  have d0 : 0 ≤ f.srnd q := srnd_pos_le h0
  have hdb := (Fmt.srnd_nearest (f := f) hp q).1
  have hyb := (Fmt.srnd_nearest (f := f) hp (u * f.srnd q)).1
  have e1 := Fmt.srnd_le hp hyb hc.le
  have hle : u * f.srnd q ≤ f.srnd q := by nlinarith
  have e2 := Fmt.srnd_le hp hdb hle
  have e := le_antisymm e2 e1
  rw [e] at hc
  have dpos : 0 < f.srnd q := by linarith
  have hud0 : 0 ≤ u * f.srnd q := mul_nonneg hu0 d0
  have hgap : f.srnd q * (1 / 2 ^ f.prec) ≤ f.srnd q - u * f.srnd q := by nlinarith
  rcases le_or_gt ((2 : ℚ) ^ f.prec * 2 ^ f.emin) (2 * |u * f.srnd q|) with hnorm | hsub
  · have hr := srnd_rel_normal hnorm
    rw [e, abs_of_nonneg hud0, abs_of_nonneg (by linarith), div_eq_mul_one_div] at hr
    have : u * f.srnd q < f.srnd q := by nlinarith
    nlinarith
  · have hr := srnd_err (f := f) (u * f.srnd q)
    rw [e, abs_of_nonneg hud0, abs_of_nonneg (by linarith)] at hr
    rw [abs_of_nonneg hud0] at hsub
    have h3 : u * f.srnd q / 2 ^ f.prec < 2 ^ f.emin / 2 := by
      rw [div_lt_iff₀ (by positivity)]
      linarith
    have h4 : (16777216 : ℚ) * 2 ^ f.emin ≤ 2 ^ f.prec * 2 ^ f.emin := mul_le_mul_of_nonneg_right (by norm_num at h24 ⊢; exact h24) hn0.le
    have h5 : q < 2 ^ f.prec * 2 ^ f.emin := by linarith
    obtain ⟨n, rfl⟩ := hq
    have h6 : (n : ℚ) < 2 ^ f.prec := lt_of_mul_lt_mul_right h5 hn0.le
    have h7 : (0 : ℚ) ≤ n := by
      by_contra hneg
      have := mul_neg_of_neg_of_pos (not_le.1 hneg) hn0
      linarith
    have hb : IsBinary f.prec f.emin (n * 2 ^ f.emin) := by
      refine ⟨n, f.emin, ?_, le_rfl, rfl⟩
      rw [abs_of_nonneg (by exact_mod_cast h7)]
      exact_mod_cast h6
    rw [Fmt.srnd_self hp hb] at hc
    exact lt_irrefl _ hc

theorem uni_value {f : Fmt} (hf : f = .double ∨ f = .single) {lo hi : Flt} {a b : ℚ} (ha : Stands f lo a) (hb : Stands f hi b)
    (h : a ≤ b) (hm : b - a ≤ f.maxVal) {x : Nat} (hx : 1 ≤ x ∧ x < 2147483647) :
    ∃ u, Stands f (canonical f x).1 u ∧ 0 ≤ u ∧ u ≤ 1 - 1 / 2 ^ f.prec ∧
      Stands f (uni f lo hi x).1 (f.srnd (f.srnd (u * f.srnd (b - a)) + a)) ∧ 0 ≤ f.srnd (u * f.srnd (b - a)) ∧
      f.srnd (u * f.srnd (b - a)) ≤ b - a ∧ (uni f lo hi x).2 = next^[drawsOf f] x := by
  obtain ⟨u, hu, u0, u1, e⟩ := canonical_range hf hx
  have q0 : 0 ≤ b - a := by linarith
  have d := sub_stands hf hb ha (by rw [abs_of_nonneg q0]; exact hm)
  have dm : |u * f.srnd (b - a)| ≤ f.maxVal := by
    have h1 : 0 ≤ f.srnd (b - a) := srnd_pos_le q0
    have h3 : (0 : ℚ) < 1 / 2 ^ f.prec := by positivity
    have h4 := d.abs_le
    rw [abs_of_nonneg h1] at h4
    rw [abs_of_nonneg (mul_nonneg u0 h1)]
    nlinarith
  have m := mul_stands hf hu d dm
  have hle := scaled_le hf (by rw [sub_eq_add_neg]; exact multiple_add (binary_mul hb.binary) (multiple_neg (binary_mul ha.binary))) q0 u0 u1
  have m0 : 0 ≤ f.srnd (u * f.srnd (b - a)) := srnd_pos_le (mul_nonneg u0 (srnd_pos_le q0))
  have sm : |f.srnd (u * f.srnd (b - a)) + a| ≤ f.maxVal := by
    have h1 := abs_le.1 ha.abs_le
    have h2 := abs_le.1 hb.abs_le
    rw [abs_le]
    constructor <;> linarith [h1.1, h1.2, h2.1, h2.2]
  exact ⟨u, hu, u0, u1, add_stands hf m ha sm, m0, hle, e⟩

/-- A uniform random number is never below the lower limit and never above the upper one, for all limits whose distance is in range and
all states of the generator; the engine is called twice for a `double` and once for a `float`. -/
theorem C115_range (f : Fmt) (hf : f = .double ∨ f = .single) (lo hi : Flt) (a b : ℚ) (ha : Stands f lo a) (hb : Stands f hi b)
    (h : a ≤ b) (hm : b - a ≤ f.maxVal) (s n : Nat) :
    ∃ v, Stands f (uni f lo hi (next^[n] (seed s))).1 v ∧ a ≤ v ∧ v ≤ b ∧
      (uni f lo hi (next^[n] (seed s))).2 = next^[n + (if f = .double then 2 else 1)] (seed s) := by
  obtain ⟨u, -, u0, u1, hv, m0, m1, e⟩ := uni_value hf ha hb h hm (iter_range (seed_range s) n)
  refine ⟨_, hv, ?_, ?_, ?_⟩
  · exact Fmt.le_srnd (prec_pos hf) ha.binary (by linarith)
  · exact Fmt.srnd_le (prec_pos hf) hb.binary (by linarith)
  · rw [e, Nat.add_comm, Function.iterate_add_apply]
    rfl

/-- With equal limits the number is the limit. -/
theorem C115_equal (f : Fmt) (hf : f = .double ∨ f = .single) (lo : Flt) (a : ℚ) (ha : Stands f lo a) (s n : Nat) :
    Stands f (uni f lo lo (next^[n] (seed s))).1 a := by
  obtain ⟨v, hv, h1, h2, -⟩ := C115_range f hf lo lo a a ha ha le_rfl (by rw [sub_self]; exact (maxVal_pos hf).le) s n
  rwa [le_antisymm h2 h1] at hv

/-- Full statement: the number is below the upper limit (`uniform_real_distribution` is documented to draw from `[a, b)`). -/
def UniBelow (f : Fmt) : Prop := ∀ (lo hi : Flt) (a b : ℚ), Stands f lo a → Stands f hi b → a < b → b - a ≤ f.maxVal → ∀ (s n : Nat),
  ∃ v, Stands f (uni f lo hi (next^[n] (seed s))).1 v ∧ v < b

theorem two_single : Stands .single (.fin false 2) 2 := by
  refine ⟨⟨by norm_num, by decide +kernel, ?_⟩, rfl⟩
  simpa using pow_binary (f := .single) (.inr rfl) 1

/-- The `float` numbers between 1 and 2 reach 2, and the `double` numbers reach the upper limit if the limits are neighbours. -/
theorem C115_below_refuted : ¬ UniBelow .single ∧ ¬ UniBelow .double ∧
    uni .single (.fin false 1) (.fin false 2) (seed 739806647) = (.fin false 2, 2147483646) := by
  have w : uni .single (.fin false 1) (.fin false 2) (seed 739806647) = (.fin false 2, 2147483646) := by decide +kernel
  refine ⟨fun h => ?_, fun h => ?_, w⟩
  · obtain ⟨v, hv, hlt⟩ := h (.fin false 1) (.fin false 2) 1 2 (one_stands (.inr rfl)) two_single (by norm_num) (by decide +kernel) 739806647 0
    rw [Function.iterate_zero, id, w] at hv
    obtain ⟨s, m, e, e2⟩ := hv.fin
    cases e
    norm_num [Flt.val] at e2
    linarith
  · have e1 : Stands .double (.fin false (4503599627370497 / 2 ^ 52)) (4503599627370497 / 2 ^ 52) :=
      stands_double false (n := 4503599627370497) (e := 52) (by norm_num) (by norm_num)
    obtain ⟨v, hv, hlt⟩ := h (.fin false 1) (.fin false (4503599627370497 / 2 ^ 52)) 1 (4503599627370497 / 2 ^ 52) (one_stands (.inl rfl)) e1
      (by norm_num) (by decide +kernel) 739806647 0
    have w2 : (uni .double (.fin false 1) (.fin false (4503599627370497 / 2 ^ 52)) (seed 739806647)).1 =
      .fin false (4503599627370497 / 2 ^ 52) := by decide +kernel
    rw [Function.iterate_zero, id, w2] at hv
    obtain ⟨s, m, e, e2⟩ := hv.fin
    cases e
    norm_num [Flt.val] at e2
    linarith

/-- Between 0 and 1 the upper limit is never reached, nor between 0 and any power of two. -/
theorem C115_unit (f : Fmt) (hf : f = .double ∨ f = .single) (hi : Flt) (j : Nat) (hj : Stands f hi (2 ^ j)) (s n : Nat) :
    ∃ v, Stands f (uni f (.fin false 0) hi (next^[n] (seed s))).1 v ∧ 0 ≤ v ∧ v < 2 ^ j := by
  have hz := zero_stands f hf false
  obtain ⟨u, -, u0, u1, hv, m0, m1, e⟩ := uni_value hf hz hj (by positivity) (by rw [sub_zero]; exact (le_abs_self _).trans hj.abs_le)
    (iter_range (seed_range s) n)
  have hp := prec_pos hf
  rw [sub_zero, Fmt.srnd_self hp hj.binary] at hv m0 m1
  rw [add_zero, Fmt.srnd_self hp (Fmt.srnd_nearest (f := f) hp _).1] at hv
  refine ⟨_, hv, m0, lt_of_le_of_ne m1 fun e => ?_⟩
  obtain ⟨h24, hn0, hn, hM⟩ := fmt_consts hf
  have hb : IsBinary f.prec f.emin ((1 - 1 / 2 ^ f.prec) * 2 ^ j) := by
    refine ⟨2 ^ f.prec - 1, -(f.prec : Int) + j, ?_, by rcases hf with rfl | rfl <;> simp [Fmt.double, Fmt.single] <;> omega, ?_⟩
    · have : (1 : Int) ≤ 2 ^ f.prec := one_le_pow₀ (by norm_num)
      rw [abs_of_nonneg (by linarith)]
      linarith
    · rw [zpow_add₀ (by norm_num), zpow_neg, zpow_natCast, zpow_natCast]
      push_cast
      field_simp
  have h2 : (0 : ℚ) < 2 ^ j := by positivity
  have := Fmt.srnd_le hp hb (mul_le_mul_of_nonneg_right u1 h2.le)
  rw [e] at this
  have h3 : (0 : ℚ) < 1 / 2 ^ f.prec := by positivity
  nlinarith

/-! ## Numbers of type `double` -/

theorem next_last {x : Nat} (hx : 1 ≤ x ∧ x < 2147483647) (h : next x = 2147483646) : x = 739806647 := by
  have h1 := next_cast x
  rw [h] at h1
  have e : next 739806647 = 2147483646 := by decide +kernel
  have h2 := next_cast 739806647
  rw [e, h1] at h2
  have hg : (16807 : ZMod 2147483647) ≠ 0 := (IsUnit.of_pow_eq_one gen_one (by norm_num)).ne_zero
  exact cast_inj hx.2 (by norm_num) (mul_left_cancel₀ hg h2)

theorem nat_double {n : Nat} (h : n < 2 ^ 53) : Stands .double (Fmt.double.ofRat n) n := by
  have hb : IsBinary Fmt.double.prec Fmt.double.emin (n : ℚ) := by
    have := int_binary (f := .double) (.inl rfl) (n := n) (by rw [Nat.abs_cast]; exact_mod_cast h)
    simpa using this
  have hm : |(n : ℚ)| ≤ Fmt.double.maxVal := by
    apply max100 (.inl rfl) (j := 53) (Nat.cast_nonneg n) (by exact_mod_cast h.le) (by norm_num)
  have := stands_rat (.inl rfl) hm
  rwa [Fmt.srnd_self (prec_pos (.inl rfl)) hb] at this

/-- Consecutive draws are never both as large as possible, so the numbers keep a distance from one. -/
theorem canonical_double {x : Nat} (hx : 1 ≤ x ∧ x < 2147483647) {u : ℚ} (h : Stands .double (canonical .double x).1 u) :
    u ≤ 1 - 1 / 2 ^ 32 := by
  have hd : Fmt.double = .double ∨ Fmt.double = .single := .inl rfl
  have hp := prec_pos hd
  have r1 := next_range hx
  have r2 := next_range r1
  obtain ⟨a1, h1⟩ : ∃ a, a = next x - 1 := ⟨_, rfl⟩
  obtain ⟨a2, h2⟩ : ∃ a, a = next (next x) - 1 := ⟨_, rfl⟩
  have hK : a1 + a2 * 2147483646 + 1407677000 ≤ 2147483646 * 2147483646 := by
    rcases Nat.lt_or_ge (next (next x)) 2147483646 with hc | hc
    · have : a2 ≤ 2147483644 := by omega
      have := Nat.mul_le_mul_right 2147483646 this
      omega
    · have e : next (next x) = 2147483646 := by omega
      have := next_last r1 e
      have : a2 = 2147483645 := by omega
      subst this
      omega
  have s1 := nat_double (n := a1) (by omega)
  have s2 := nat_double (n := a2) (by omega)
  have hr : Fmt.double.ofRat ((Flt.fin false 1).val * 2147483646) = .fin false 2147483646 := by decide +kernel
  have hr2 : Fmt.double.ofRat ((Flt.fin false 2147483646).val * 2147483646) = .fin false (2 ^ 62 - 2 ^ 33) := by decide +kernel
  have t1 : Stands .double (.fin false 2147483646) 2147483646 := by
    simpa using stands_double false (n := 2147483646) (e := 0) (by norm_num) (by norm_num)
  have t2 : Stands .double (.fin false (2 ^ 62 - 2 ^ 33)) (2 ^ 62 - 2 ^ 33) := by
    refine ⟨⟨by norm_num, by decide +kernel, 2 ^ 29 - 1, 33, by decide, by decide, by norm_num⟩, rfl⟩
  obtain ⟨s, m, e1, e1v⟩ := s1.fin
  have b1 : (a1 : ℚ) < 2 ^ 31 := by have : a1 < 2 ^ 31 := by omega
                                    exact_mod_cast this
  have b2 : (a2 : ℚ) < 2 ^ 31 := by have : a2 < 2 ^ 31 := by omega
                                    exact_mod_cast this
  have n1 : (0 : ℚ) ≤ a1 := Nat.cast_nonneg _
  have n2 : (0 : ℚ) ≤ a2 := Nat.cast_nonneg _
  -- the first term
  have m1 := mul_stands hd s1 (one_stands hd) (by rw [mul_one]; exact s1.abs_le)
  rw [mul_one, Fmt.srnd_self hp s1.binary] at m1
  have z1 := add_stands hd (zero_stands .double hd false) m1 (by rw [zero_add]; exact s1.abs_le)
  rw [zero_add, Fmt.srnd_self hp s1.binary] at z1
  -- the second term
  have p0 : (0 : ℚ) ≤ a2 * 2147483646 := by positivity
  have p1 : (a2 : ℚ) * 2147483646 ≤ 2 ^ 62 := by linarith
  have m2 := mul_stands hd s2 t1 (max100 hd p0 p1 (by norm_num))
  have c0 := srnd_pos_le (f := .double) p0
  have c1 := srnd_err (f := .double) (a2 * 2147483646)
  rw [abs_of_nonneg p0] at c1
  have hem : (2 : ℚ) ^ Fmt.double.emin ≤ 1 := by decide +kernel
  have hpr : (2 : ℚ) ^ Fmt.double.prec = 2 ^ 53 := rfl
  rw [hpr] at c1
  have c2 := (abs_le.1 c1).2
  have c3 : (a2 : ℚ) * 2147483646 / 2 ^ 53 ≤ 2 ^ 9 := by rw [div_le_iff₀ (by positivity)]; linarith
  have q0 : 0 ≤ (a1 : ℚ) + Fmt.double.srnd (a2 * 2147483646) := by linarith
  have q1 : (a1 : ℚ) + Fmt.double.srnd (a2 * 2147483646) ≤ 2 ^ 63 := by linarith
  have m3 := add_stands hd z1 m2 (max100 hd q0 q1 (by norm_num))
  have d1 := srnd_err (f := .double) ((a1 : ℚ) + Fmt.double.srnd (a2 * 2147483646))
  rw [abs_of_nonneg q0, hpr] at d1
  have d2 := (abs_le.1 d1).2
  have d3 : ((a1 : ℚ) + Fmt.double.srnd (a2 * 2147483646)) / 2 ^ 53 ≤ 2 ^ 10 := by rw [div_le_iff₀ (by positivity)]; linarith
  have hKq : (a1 : ℚ) + a2 * 2147483646 + 1407677000 ≤ 2147483646 * 2147483646 := by exact_mod_cast hK
  have f0 := srnd_pos_le (f := .double) q0
  have f1 : Fmt.double.srnd ((a1 : ℚ) + Fmt.double.srnd (a2 * 2147483646)) / (2 ^ 62 - 2 ^ 33) ≤ 1 - 1 / 2 ^ 32 := by
    rw [div_le_iff₀ (by norm_num)]
    linarith
  have f2 : 0 ≤ Fmt.double.srnd ((a1 : ℚ) + Fmt.double.srnd (a2 * 2147483646)) / (2 ^ 62 - 2 ^ 33) := div_nonneg f0 (by norm_num)
  have m4 := div_stands hd m3 t2 (by norm_num) (max100 hd (j := 0) f2 (by linarith) (by norm_num))
  have hb : IsBinary Fmt.double.prec Fmt.double.emin (1 - 1 / 2 ^ 32) := ⟨2 ^ 32 - 1, -32, by decide, by decide, by norm_num⟩
  have g := Fmt.srnd_le hp hb f1
  have hlt : ¬ (Flt.fin false 1).le (Fmt.double.div (Fmt.double.add (Fmt.double.add (.fin false 0) (Fmt.double.mul (Fmt.double.ofRat (a1 : ℚ))
      (.fin false 1))) (Fmt.double.mul (Fmt.double.ofRat (a2 : ℚ)) (.fin false 2147483646))) (.fin false (2 ^ 62 - 2 ^ 33))) = true := by
    intro hc
    have := (le_stands (one_stands hd) m4).1 hc
    linarith
  have ec : canonical .double x = (Fmt.double.div (Fmt.double.add (Fmt.double.add (.fin false 0) (Fmt.double.mul (Fmt.double.ofRat (a1 : ℚ))
      (.fin false 1))) (Fmt.double.mul (Fmt.double.ofRat (a2 : ℚ)) (.fin false 2147483646))) (.fin false (2 ^ 62 - 2 ^ 33)), next (next x)) := by
    have hk : max 1 ((Fmt.double.prec + 30 - 1) / 30) = 2 := rfl
    unfold canonical
    rw [hk]
    simp only [canonicalLoop, hr, hr2, ← h1, ← h2]
    rw [if_neg hlt]
  rw [ec] at h
  obtain ⟨_, _, k1, k2⟩ := h.fin
  obtain ⟨_, _, k3, k4⟩ := m4.fin
  replace k1 := k3.symm.trans k1
  cases k1
  rw [← k2, k4]
  exact g

/-- Numbers of type `double` stay below the upper limit, if the distance of the limits is not below 2^-900 and not more than 2^18 times
smaller than they are. -/
theorem C115_below_partial (lo hi : Flt) (a b : ℚ) (ha : Stands .double lo a) (hb : Stands .double hi b) (h : 1 / 2 ^ 900 ≤ b - a)
    (hm : b - a ≤ Fmt.double.maxVal) (h1 : |a| ≤ 2 ^ 18 * (b - a)) (h2 : |b| ≤ 2 ^ 18 * (b - a)) (s n : Nat) :
    ∃ v, Stands .double (uni .double lo hi (next^[n] (seed s))).1 v ∧ a ≤ v ∧ v < b := by
  have hd : Fmt.double = .double ∨ Fmt.double = .single := .inl rfl
  have hp := prec_pos hd
  have hq0 : (0 : ℚ) < b - a := lt_of_lt_of_le (by positivity) h
  have hx := iter_range (seed_range s) n
  obtain ⟨u, hu, u0, -, hv, m0, m1, -⟩ := uni_value hd ha hb (by linarith) hm hx
  have u1 := canonical_double hx hu
  refine ⟨_, hv, Fmt.le_srnd hp ha.binary (by linarith), ?_⟩
  have hpr : (2 : ℚ) ^ Fmt.double.prec = 2 ^ 53 := rfl
  have hem : (2 : ℚ) ^ Fmt.double.emin ≤ 1 / 2 ^ 900 / 2 ^ 60 := by decide +kernel
  have c1 := srnd_rel (f := .double) hp (q := b - a)
    (by rw [sub_eq_add_neg]; exact multiple_add (binary_mul hb.binary) (multiple_neg (binary_mul ha.binary)))
  rw [abs_of_nonneg hq0.le, hpr] at c1
  have c2 := (abs_le.1 c1).2
  have d0 : 0 ≤ Fmt.double.srnd (b - a) := srnd_pos_le hq0.le
  have p0 := mul_nonneg u0 d0
  have c3 := srnd_err (f := .double) (u * Fmt.double.srnd (b - a))
  rw [abs_of_nonneg p0, hpr] at c3
  have c4 := (abs_le.1 c3).2
  have p1 : u * Fmt.double.srnd (b - a) ≤ (1 - 1 / 2 ^ 32) * ((b - a) * (1 + 1 / 2 ^ 53)) :=
    mul_le_mul u1 (by linarith) d0 (by norm_num)
  have e1 : (b - a) / 2 ^ 900 = (b - a) * (1 / 2 ^ 900) := by ring
  have p2 : Fmt.double.srnd (u * Fmt.double.srnd (b - a)) ≤ (b - a) * (1 - 1 / 2 ^ 33) := by
    norm_num at *
    linarith
  have c5 := srnd_err (f := .double) (Fmt.double.srnd (u * Fmt.double.srnd (b - a)) + a)
  rw [hpr] at c5
  have c6 := (abs_le.1 c5).2
  have p3 : |Fmt.double.srnd (u * Fmt.double.srnd (b - a)) + a| ≤ 2 ^ 18 * (b - a) := by
    have h1 := abs_le.1 h1
    have h2 := abs_le.1 h2
    rw [abs_le]
    constructor <;> linarith [h1.1, h1.2, h2.1, h2.2]
  have p4 : |Fmt.double.srnd (u * Fmt.double.srnd (b - a)) + a| / 2 ^ 53 ≤ (b - a) / 2 ^ 35 := by
    rw [div_le_iff₀ (by positivity)]
    have e : (b - a) / 2 ^ 35 * 2 ^ 53 = 2 ^ 18 * (b - a) := by ring
    rw [e]
    exact p3
  norm_num at *
  linarith

example : uni .double (.fin true 1) (.fin false 1) initial = (.fin true (5779956849312721 / 2 ^ 53), 384717275) := by decide +kernel

example : ∃ v, Stands .double (uni .double (.fin false 1) (.fin false 3) (next^[5] (seed 9))).1 v ∧ 1 ≤ v ∧ v < 3 :=
  C115_below_partial _ _ 1 3 (one_stands (.inl rfl)) three_stands (by decide +kernel) (by decide +kernel) (by norm_num) (by norm_num) 9 5

end Flut
