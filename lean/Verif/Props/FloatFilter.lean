import Verif.Proofs.FloatFilter

/-! # Property theorems: filters in floating-point arithmetic (C136) -/

namespace Flut

open Spec FloatMath Finset

/-! ## One output -/

/-- Whatever the filter has been through, a step gives the right side of the difference equation for the numbers in its arrays, up to the
rounding of the operations. -/
theorem C136_step (f : Fmt) (hf : f = .double ∨ f = .single) (N : Nat) (hN : N ≤ 1000) (c : Iir Flt) (x : Flt) (p0 u : ℚ) (p v a w : Nat → ℚ)
    (h0 : Stands f c.b0 p0) (hx : Stands f x u)
    (hc : ∀ j < N, Stands f (c.b j) (p j) ∧ Stands f (c.x j) (v j) ∧ Stands f (c.a j) (a j) ∧ Stands f (c.y j) (w j)) (S : ℚ)
    (hS : |p0 * u| + ∑ j ∈ range N, (|p j * v j| + |a j * w j|) ≤ S) (hM : 2 * S ≤ f.maxVal) :
    ∃ r, Stands f (iirStep f N c x).1 r ∧ |r - (p0 * u + ∑ j ∈ range N, (p j * v j + a j * w j))| ≤
      (N + 5) * (S / 2 ^ f.prec) + (3 * N + 1) * 2 ^ f.emin :=
  iirStep_near hf hN h0 hx hc hS hM

/-- Afterwards the arrays have the input and the output in front, and the rest has moved up by one. -/
theorem C136_arrays (f : Fmt) (N : Nat) (c : Iir Flt) (x : Flt) (i : Nat) (hi : i < N) :
    (iirStep f N c x).2.x i = (if i = 0 then x else c.x (i - 1)) ∧
    (iirStep f N c x).2.y i = (if i = 0 then (iirStep f N c x).1 else c.y (i - 1)) ∧
    (iirStep f N c x).2.b0 = c.b0 ∧ (iirStep f N c x).2.b = c.b ∧ (iirStep f N c x).2.a = c.a :=
  ⟨(iirStep_x f N c x i hi).1, (iirStep_x f N c x i hi).2, rfl, rfl, rfl⟩

/-! ## A whole run -/

theorem past_getD (l : List ℚ) (n i : Nat) : past (fun k => l.getD k 0) n i = recent l n i := rfl

theorem zero_stands' (f : Fmt) (hf : f = .double ∨ f = .single) : Stands f (.fin false 0) 0 := by
  simpa using small_stands hf 0 (by norm_num)

/-- A filter whose response to a single one adds up to `G` stays within `G` times the rounding of one step of the exact filter, however
long it runs. -/
theorem C136_run (f : Fmt) (hf : f = .double ∨ f = .single) (N : Nat) (hN : N ≤ 1000) (b0 : Flt) (b a : Nat → Flt) (p0 : ℚ) (p c : Nat → ℚ)
    (h0 : Stands f b0 p0) (hb : ∀ i < N, Stands f (b i) (p i)) (ha : ∀ i < N, Stands f (a i) (c i)) (xs : List Flt) (us : List ℚ)
    (hx : List.Forall₂ (Stands f) xs us) (X A B G Y : ℚ) (h : Nat → ℚ) (hX : ∀ u ∈ us, |u| ≤ X) (hB : |p0| + ∑ i ∈ range N, |p i| ≤ B)
    (hA : ∑ i ∈ range N, |c i| ≤ A) (hh : Response N c h) (hG : SumAtMost h G) (hY0 : 0 ≤ Y)
    (hY : G * (B * X + ((N + 5) * ((B * X + A * Y) / 2 ^ f.prec) + (3 * N + 1) * 2 ^ f.emin)) ≤ Y) (hM : 2 * (B * X + A * Y) ≤ f.maxVal)
    (n : Nat) (hn : n < xs.length) :
    ∃ y r e, (iirRun f N (iirNew b0 b a) xs)[n]? = some y ∧ Stands f y r ∧ |r| ≤ Y ∧ (Iir.run N (Iir.new p0 p c) us)[n]? = some e ∧
      |r - e| ≤ G * ((N + 5) * ((B * X + A * Y) / 2 ^ f.prec) + (3 * N + 1) * 2 ^ f.emin) := by
  have hlen := hx.length_eq
  obtain ⟨hol, ho⟩ := iirRun_step f N b0 b a xs
  obtain ⟨hel, he⟩ := C68_difference_equation N p0 p c us
  set outs := iirRun f N (iirNew b0 b a) xs with houts
  set exs := Iir.run N (Iir.new p0 p c) us with hexs
  set δ : ℚ := (N + 5) * ((B * X + A * Y) / 2 ^ f.prec) + (3 * N + 1) * 2 ^ f.emin with hδ
  obtain ⟨r, hr⟩ : ∃ r : Nat → ℚ, r = fun k => (outs.getD k (.fin false 0)).val := ⟨_, rfl⟩
  obtain ⟨u, hu⟩ : ∃ u : Nat → ℚ, u = fun k => us.getD k 0 := ⟨_, rfl⟩
  obtain ⟨d, hd⟩ : ∃ d : Nat → ℚ, d = fun n => p0 * u n + ∑ i ∈ range N, p i * past u n i := ⟨_, rfl⟩
  obtain ⟨D, hD⟩ : ∃ D : Nat → ℚ, D = fun n => r n - ∑ i ∈ range N, c i * past r n i := ⟨_, rfl⟩
  -- signs of the constants
  have hX0 : 0 ≤ X := by
    have : n < us.length := by omega
    exact (abs_nonneg us[n]).trans (hX _ (List.getElem_mem this))
  have hA0 : 0 ≤ A := le_trans (sum_nonneg fun i _ => abs_nonneg _) hA
  have hB0 : 0 ≤ B := le_trans (add_nonneg (abs_nonneg _) (sum_nonneg fun i _ => abs_nonneg _)) hB
  have hG0 : 0 ≤ G := by simpa using hG 0
  have hn0 := (fmt_consts hf).2.1
  have hδ0 : 0 ≤ δ := by rw [hδ]; positivity
  -- inputs
  have hus : ∀ k, |u k| ≤ X := by
    intro k
    rw [hu]
    dsimp only
    rw [List.getD_eq_getElem?_getD]
    by_cases hk : k < us.length
    · rw [List.getElem?_eq_getElem hk]
      exact hX _ (List.getElem_mem hk)
    · rw [List.getElem?_eq_none (by omega)]
      simpa using hX0
  have hxs : ∀ k (hk : k < xs.length), Stands f xs[k] (u k) := by
    intro k hk
    have := List.forall₂_iff_get.1 hx
    have h2 := this.2 k hk (by omega)
    rw [hu]
    dsimp only
    rw [List.getD_eq_getElem?_getD, List.getElem?_eq_getElem (by omega)]
    exact h2
  have hpu : ∀ m i, |past u m i| ≤ X := by
    intro m i
    unfold past
    split
    · exact hus _
    · simpa using hX0
  -- the outputs as weighted sums
  have hrs : ∀ m, r m = ∑ k ∈ range (m + 1), D k * h (m - k) :=
    fun m => response_sum hh (m + 1) (fun k _ => by rw [hD]; ring) m (by omega)
  have hes : ∀ m < us.length, exs.getD m 0 = ∑ k ∈ range (m + 1), d k * h (m - k) := by
    refine response_sum hh us.length (e := fun m => exs.getD m 0) fun k hk => ?_
    simp only [past_getD]
    rw [List.getD_eq_getElem?_getD, he k hk, Option.getD_some, hd]
    dsimp only
    rw [sum_add_distrib, hu]
    simp only [past_getD]
    rw [List.getD_eq_getElem?_getD, List.getElem?_eq_getElem hk, Option.getD_some]
    ring
  have key : ∀ m < xs.length, (∃ y, outs[m]? = some y ∧ Stands f y (r m)) ∧ |r m| ≤ Y ∧ |D m - d m| ≤ δ := by
    intro m
    induction m using Nat.strongRecOn with
    | ind m ih =>
      intro hm
      have hrec : ∀ i, Stands f (recentF outs m i) (past r m i) ∧ |past r m i| ≤ Y := by
        intro i
        unfold recentF past
        by_cases hi : i < m
        · rw [if_pos hi, if_pos hi]
          obtain ⟨⟨y, e1, e2⟩, e3, _⟩ := ih (m - 1 - i) (by omega) (by omega)
          rw [List.getD_eq_getElem?_getD, e1]
          exact ⟨e2, e3⟩
        · rw [if_neg hi, if_neg hi]
          exact ⟨zero_stands' f hf, by simpa using hY0⟩
      have hrecx : ∀ i, Stands f (recentF xs m i) (past u m i) := by
        intro i
        unfold recentF past
        by_cases hi : i < m
        · rw [if_pos hi, if_pos hi, List.getD_eq_getElem?_getD, List.getElem?_eq_getElem (by omega)]
          exact hxs _ _
        · rw [if_neg hi, if_neg hi]
          exact zero_stands' f hf
      have hS : |p0 * u m| + ∑ j ∈ range N, (|p j * past u m j| + |c j * past r m j|) ≤ B * X + A * Y := by
        have i1 : |p0 * u m| ≤ |p0| * X := by rw [abs_mul]; exact mul_le_mul_of_nonneg_left (hus m) (abs_nonneg _)
        have i2 : ∑ j ∈ range N, |p j * past u m j| ≤ (∑ j ∈ range N, |p j|) * X := by
          rw [sum_mul]
          refine sum_le_sum fun j _ => ?_
          rw [abs_mul]; exact mul_le_mul_of_nonneg_left (hpu m j) (abs_nonneg _)
        have i3 : ∑ j ∈ range N, |c j * past r m j| ≤ (∑ j ∈ range N, |c j|) * Y := by
          rw [sum_mul]
          refine sum_le_sum fun j _ => ?_
          rw [abs_mul]; exact mul_le_mul_of_nonneg_left (hrec j).2 (abs_nonneg _)
        have i4 := mul_le_mul_of_nonneg_right hB hX0
        have i5 := mul_le_mul_of_nonneg_right hA hY0
        rw [add_mul] at i4
        rw [sum_add_distrib]
        linarith
      obtain ⟨r', s1, s2⟩ := iirStep_near (c := ⟨b0, b, a, recentF xs m, recentF outs m⟩) (p := p) (v := past u m) (a := c) (w := past r m) hf hN h0
        (hxs m hm) (fun j hj => ⟨hb j hj, hrecx j, ha j hj, (hrec j).1⟩) hS hM
      have ey := ho m hm
      have er : r m = r' := by
        rw [hr]
        dsimp only
        rw [List.getD_eq_getElem?_getD, ey, Option.getD_some]
        obtain ⟨s, k, e1, e2⟩ := s1.fin
        rw [e1, e2]
      have hDd : |D m - d m| ≤ δ := by
        rw [hD, hd]
        dsimp only
        rw [er]
        rw [sum_add_distrib] at s2
        convert s2 using 2
        ring
      refine ⟨⟨_, ey, er ▸ s1⟩, ?_, hDd⟩
      rw [hrs m]
      refine (weighted_le hG (D := B * X + δ) (by positivity) m fun k hk => ?_).trans hY
      have hdk : |d k| ≤ B * X := by
        rw [hd]
        dsimp only
        have i1 : |p0 * u k| ≤ |p0| * X := by rw [abs_mul]; exact mul_le_mul_of_nonneg_left (hus k) (abs_nonneg _)
        have i2 : |∑ j ∈ range N, p j * past u k j| ≤ (∑ j ∈ range N, |p j|) * X := by
          refine (abs_sum_le_sum_abs _ _).trans ?_
          rw [sum_mul]
          refine sum_le_sum fun j _ => ?_
          rw [abs_mul]; exact mul_le_mul_of_nonneg_left (hpu k j) (abs_nonneg _)
        have i4 := mul_le_mul_of_nonneg_right hB hX0
        rw [add_mul] at i4
        have := abs_add_le (p0 * u k) (∑ j ∈ range N, p j * past u k j)
        linarith
      have hDk : |D k - d k| ≤ δ := by
        rcases hk.eq_or_lt with rfl | hk
        · exact hDd
        · exact (ih k hk (by omega)).2.2
      have := abs_add_le (D k - d k) (d k)
      rw [sub_add_cancel] at this
      linarith
  obtain ⟨⟨y, e1, e2⟩, e3, _⟩ := key n hn
  have hnu : n < us.length := by omega
  refine ⟨y, r n, exs.getD n 0, e1, e2, e3, ?_, ?_⟩
  · rw [List.getD_eq_getElem?_getD, List.getElem?_eq_getElem (by omega)]
    rfl
  · rw [hrs n, hes n hnu, ← sum_sub_distrib]
    have : ∀ k ∈ range (n + 1), D k * h (n - k) - d k * h (n - k) = (D k - d k) * h (n - k) := fun k _ => by ring
    rw [sum_congr rfl this]
    exact weighted_le hG hδ0 n fun k hk => (key k (by omega)).2.2

/-- The first elements of the response, the last one first. -/
def responseList (N : Nat) (c : Nat → ℚ) : Nat → List ℚ
  | 0 => []
  | n + 1 => ((if n = 0 then 1 else 0) + ∑ i ∈ range N, c i * (responseList N c n).getD i 0) :: responseList N c n

theorem responseList_length (N : Nat) (c : Nat → ℚ) (n : Nat) : (responseList N c n).length = n := by
  induction n with
  | zero => rfl
  | succ n ih => simp [responseList, ih]

theorem responseList_getD (N : Nat) (c : Nat → ℚ) (n i : Nat) :
    (responseList N c n).getD i 0 = past (fun n => (responseList N c (n + 1)).getD 0 0) n i := by
  unfold past
  induction n generalizing i with
  | zero => simp [responseList]
  | succ n ih =>
    cases i with
    | zero => rw [if_pos (by omega)]; rfl
    | succ i =>
      have : (responseList N c (n + 1)).getD (i + 1) 0 = (responseList N c n).getD i 0 := by
        conv_lhs => rw [responseList]
        exact List.getD_cons_succ
      rw [this, ih]
      by_cases h : i < n
      · rw [if_pos h, if_pos (by omega), show n + 1 - 1 - (i + 1) = n - 1 - i by omega]
      · rw [if_neg h, if_neg (by omega)]

/-- Every filter has one response. -/
theorem C136_response (N : Nat) (c : Nat → ℚ) : ∃ h, Response N c h ∧ ∀ h', Response N c h' → h' = h := by
  have hr : Response N c fun n => (responseList N c (n + 1)).getD 0 0 := by
    intro n
    simp only [← responseList_getD]
    conv_lhs => rw [responseList]
    rfl
  refine ⟨_, hr, fun h' hh' => ?_⟩
  funext n
  rw [response_sum hr (n + 1) (e := h') (fun k _ => hh' k) n (by omega)]
  rw [sum_eq_single_of_mem 0 (mem_range.2 (by omega))]
  · simp
  · intro k _ hk
    rw [if_neg hk, zero_mul]

/-- Coefficients with magnitudes that add up to less than one. -/
theorem C136_gain (N : Nat) (c h : Nat → ℚ) (A : ℚ) (hh : Response N c h) (hA : ∑ i ∈ range N, |c i| ≤ A) (h1 : A < 1) :
    SumAtMost h (1 / (1 - A)) := by
  intro n
  have hT0 : 0 ≤ ∑ k ∈ range n, |h k| := sum_nonneg fun k _ => abs_nonneg _
  have hp : ∀ i, ∑ k ∈ range n, |past h k i| ≤ ∑ k ∈ range n, |h k| := by
    intro i
    by_cases hi : i < n
    · conv_lhs => rw [show n = (i + 1) + (n - 1 - i) by omega, sum_range_add]
      rw [sum_eq_zero (s := range (i + 1)), zero_add]
      · calc ∑ k ∈ range (n - 1 - i), |past h (i + 1 + k) i| = ∑ k ∈ range (n - 1 - i), |h k| := by
              refine sum_congr rfl fun k _ => ?_
              unfold past
              rw [if_pos (by omega), show i + 1 + k - 1 - i = k by omega]
          _ ≤ _ := sum_le_sum_of_subset_of_nonneg (range_subset_range.2 (by omega)) fun k _ _ => abs_nonneg _
      · intro k hk
        have := mem_range.1 hk
        unfold past
        rw [if_neg (by omega), abs_zero]
    · rw [sum_eq_zero]
      · exact hT0
      · intro k hk
        have := mem_range.1 hk
        unfold past
        rw [if_neg (by omega), abs_zero]
  have h2 : ∑ k ∈ range n, |h k| ≤ 1 + A * ∑ k ∈ range n, |h k| := by
    calc ∑ k ∈ range n, |h k| ≤ ∑ k ∈ range n, ((if k = 0 then 1 else 0) + ∑ i ∈ range N, |c i| * |past h k i|) := by
          refine sum_le_sum fun k _ => ?_
          rw [hh k]
          refine (abs_add_le _ _).trans (add_le_add ?_ ?_)
          · split <;> simp
          · refine (abs_sum_le_sum_abs _ _).trans (le_of_eq (sum_congr rfl fun i _ => ?_))
            exact abs_mul _ _
      _ = (∑ k ∈ range n, if k = 0 then 1 else 0) + ∑ i ∈ range N, |c i| * ∑ k ∈ range n, |past h k i| := by
          rw [sum_add_distrib, sum_comm]
          congr 1
          exact sum_congr rfl fun i _ => by rw [mul_sum]
      _ ≤ 1 + ∑ i ∈ range N, |c i| * ∑ k ∈ range n, |h k| := by
          refine add_le_add ?_ (sum_le_sum fun i _ => mul_le_mul_of_nonneg_left (hp i) (abs_nonneg _))
          rw [sum_ite_eq']
          split <;> norm_num
      _ ≤ 1 + A * ∑ k ∈ range n, |h k| := by
          rw [← sum_mul]
          linarith [mul_le_mul_of_nonneg_right hA hT0]
  rw [le_div_iff₀ (by linarith)]
  linarith

/-- Two coefficients with complex poles inside of the unit circle, which is what the Butterworth filter has. -/
theorem C136_gain_two (c h : Nat → ℚ) (hh : Response 2 c h) (s M : ℚ) (hs0 : 0 ≤ s) (hs1 : s < 1) (hc : c 0 ^ 2 / 4 < -c 1) (hs : -c 1 ≤ s ^ 2)
    (hM0 : 0 ≤ M) (hM : -c 1 ≤ M ^ 2 * (-c 1 - c 0 ^ 2 / 4)) : SumAtMost h (M / (1 - s)) := by
  have e0 : h 0 = 1 := by rw [hh 0]; simp [past]
  have e1 : h 1 = c 0 := by rw [hh 1]; simp [past, sum_range_succ, e0]
  have e2 : ∀ n, h (n + 2) = c 0 * h (n + 1) + c 1 * h n := by
    intro n; rw [hh (n + 2)]; simp [past, sum_range_succ]
  have hρ : 0 < -c 1 := lt_of_le_of_lt (by positivity) hc
  have hV : ∀ n, h (n + 1) ^ 2 - c 0 * h (n + 1) * h n - c 1 * h n ^ 2 = (-c 1) ^ (n + 1) := by
    intro n
    induction n with
    | zero => rw [e0, e1]; ring
    | succ n ih => rw [e2, pow_succ (-c 1), ← ih]; ring
  have hb : ∀ n, |h n| ≤ M * s ^ n := by
    intro n
    have h1 : h n ^ 2 * (-c 1 - c 0 ^ 2 / 4) ≤ (-c 1) ^ (n + 1) := by
      rw [← hV n]; nlinarith [sq_nonneg (h (n + 1) - c 0 / 2 * h n)]
    have h2 : (-c 1) ^ (n + 1) ≤ (s ^ 2) ^ n * (M ^ 2 * (-c 1 - c 0 ^ 2 / 4)) := by
      rw [pow_succ]
      exact mul_le_mul (pow_le_pow_left₀ hρ.le hs n) hM hρ.le (by positivity)
    have h3 : h n ^ 2 ≤ (M * s ^ n) ^ 2 := by
      have : h n ^ 2 * (-c 1 - c 0 ^ 2 / 4) ≤ (M * s ^ n) ^ 2 * (-c 1 - c 0 ^ 2 / 4) := by
        refine (h1.trans h2).trans (le_of_eq ?_)
        rw [← pow_mul, mul_comm 2 n, pow_mul]; ring
      exact le_of_mul_le_mul_right this (by linarith)
    exact abs_le_of_sq_le_sq h3 (by positivity)
  intro n
  have hg : ∀ n, (∑ k ∈ range n, s ^ k) * (1 - s) = 1 - s ^ n := by
    intro n
    induction n with
    | zero => simp
    | succ n ih => rw [sum_range_succ, add_mul, ih, pow_succ]; ring
  rw [le_div_iff₀ (by linarith)]
  calc (∑ k ∈ range n, |h k|) * (1 - s) ≤ (∑ k ∈ range n, M * s ^ k) * (1 - s) :=
        mul_le_mul_of_nonneg_right (sum_le_sum fun k _ => hb k) (by linarith)
    _ = M * (1 - s ^ n) := by rw [← mul_sum, mul_assoc, hg]
    _ ≤ M := by nlinarith [pow_nonneg hs0 n]

/-- A low-pass filter with unit gain, for a constant input of any length: the outputs stay within 6 * (7 * 6.5 / 2^24 + 7 * 2^-149) of the exact
ones. -/
example (n k : Nat) (hk : k < n) : ∃ y r e,
    (iirRun .single 2 (iirNew (.fin false (1 / 8)) (fun i => if i = 0 then .fin false (1 / 4) else .fin false (1 / 8))
      fun i => if i = 0 then .fin false 1 else .fin true (1 / 2)) (List.replicate n (.fin false 1)))[k]? = some y ∧ Stands .single y r ∧ |r| ≤ 4 ∧
    (Iir.run 2 (Iir.new (1 / 8) (fun i => if i = 0 then 1 / 4 else 1 / 8) fun i => if i = 0 then 1 else -(1 / 2)) (List.replicate n (1 : ℚ)))[k]? = some e ∧
    |r - e| ≤ 6 * (((2 : Nat) + 5) * ((1 / 2 * 1 + 3 / 2 * 4) / 2 ^ Fmt.single.prec) + (3 * (2 : Nat) + 1) * 2 ^ Fmt.single.emin) := by
  have hf : Fmt.single = .double ∨ Fmt.single = .single := .inr rfl
  have s8 : Stands .single (.fin false (1 / 8)) (1 / 8) :=
    ⟨⟨by norm_num, by decide +kernel, 1, -3, by norm_num [Fmt.single], by decide, by norm_num⟩, rfl⟩
  have s4 : Stands .single (.fin false (1 / 4)) (1 / 4) :=
    ⟨⟨by norm_num, by decide +kernel, 1, -2, by norm_num [Fmt.single], by decide, by norm_num⟩, rfl⟩
  have s1 : Stands .single (.fin false 1) 1 := by simpa using small_stands hf 1 (by norm_num)
  obtain ⟨h, hh, -⟩ := C136_response 2 fun i : Nat => if i = 0 then 1 else -(1 / 2)
  have hG : SumAtMost h 6 := by
    have := C136_gain_two _ h hh (3 / 4) (3 / 2) (by norm_num) (by norm_num) (by norm_num) (by norm_num) (by norm_num) (by norm_num)
    norm_num at this; exact this
  refine C136_run .single hf 2 (by norm_num) _ _ _ _ _ _ s8 ?_ ?_ _ _ ?_ 1 (3 / 2) (1 / 2) 6 4 h ?_ ?_ ?_ hh hG (by norm_num) ?_ ?_ k (by simpa using hk)
  · intro i _; split
    · exact s4
    · exact s8
  · intro i _; split
    · exact s1
    · exact neg_stands (half_stands hf)
  · exact List.forall₂_iff_get.2 ⟨by simp, fun i _ _ => by simpa using s1⟩
  · intro u hu; rw [List.eq_of_mem_replicate hu]; norm_num
  · simp [sum_range_succ]; norm_num
  · simp [sum_range_succ]; norm_num
  · norm_num [Fmt.single]
  · have := (fmt_consts hf).2.2.2
    linarith [(by norm_num : (100 : ℚ) ≤ 2 ^ 100)]

/-! ## Values that are not numbers -/

/-- After an input or an output that is an infinity or not a number, no output is a number that is finite. -/
theorem C136_not_finite (f : Fmt) (N : Nat) (hN : 0 < N) (c : Iir Flt) (xs : List Flt) (k : Nat)
    (h : (∃ x, xs[k]? = some x ∧ NotFinite x) ∨ ∃ y, (iirRun f N c xs)[k]? = some y ∧ NotFinite y) (n : Nat) (y : Flt) (hn : k ≤ n)
    (hy : (iirRun f N c xs)[n]? = some y) : NotFinite y :=
  spread_from ⟨add_notFinite f, mul_notFinite f⟩ hN k c xs h n y hn hy

/-- After an input or an output that is not a number, all outputs are not numbers. -/
theorem C136_not_a_number (f : Fmt) (N : Nat) (hN : 0 < N) (c : Iir Flt) (xs : List Flt) (k : Nat)
    (h : (∃ x, xs[k]? = some x ∧ NotNumber x) ∨ ∃ y, (iirRun f N c xs)[k]? = some y ∧ NotNumber y) (n : Nat) (y : Flt) (hn : k ≤ n)
    (hy : (iirRun f N c xs)[n]? = some y) : NotNumber y :=
  spread_from ⟨add_notNumber f, mul_notNumber f⟩ hN k c xs h n y hn hy

/-! ## Symmetries -/

/-- The negative input gives the negative output, but for the sign of zero. -/
theorem C136_negative (f : Fmt) (N : Nat) (b0 : Flt) (b a : Nat → Flt) (xs : List Flt) (hx : ∀ x ∈ xs, IsFloat f x) :
    (iirRun f N (iirNew b0 b a) (xs.map Flt.neg)).map Flt.pos = (iirRun f N (iirNew b0 b a) xs).map fun y => y.neg.pos := by
  have h0 : Proper (.fin false 0) := by rintro s m h; cases h; exact le_rfl
  have hz : (Flt.fin false 0).pos = (Flt.fin false 0).neg.pos := by simp [Flt.neg, Flt.pos]
  exact alike_run (Change.neg f) xs ⟨rfl, rfl, rfl, fun _ _ => ⟨hz, h0, h0⟩, fun _ _ => ⟨hz, h0, h0⟩⟩ fun x h => Proper.of (hx x h)

/-- Zeros before the input give as many zeros before the same output, but for the sign of zero. -/
theorem C136_delay (f : Fmt) (hf : f = .double ∨ f = .single) (N k : Nat) (b0 : Flt) (b a : Nat → Flt) (p0 : ℚ) (p c : Nat → ℚ) (h0 : Stands f b0 p0)
    (hb : ∀ i < N, Stands f (b i) (p i)) (ha : ∀ i < N, Stands f (a i) (c i)) (xs : List Flt) (hx : ∀ x ∈ xs, IsFloat f x) :
    (iirRun f N (iirNew b0 b a) (List.replicate k (.fin false 0) ++ xs)).map Flt.pos =
      List.replicate k (Flt.fin false 0).pos ++ (iirRun f N (iirNew b0 b a) xs).map Flt.pos := by
  have hz0 : Proper (.fin false 0) := by rintro s m h; cases h; exact le_rfl
  have st : ∀ {x : Flt}, x.pos = (Flt.fin false 0).pos → Proper x → Stands f x 0 := by
    intro x e hp
    rcases x with ⟨s, m⟩ | s | s
    · have e' := fin_pos_inj e
      have hm : m = 0 := by cases s <;> simp at e' <;> exact e'
      subst hm
      exact ⟨⟨le_rfl, (maxVal_pos hf).le, 0, f.emin, by simp, le_rfl, by simp⟩, by rw [e]; simp [Flt.pos]⟩
    · rcases pos_cases e with ⟨_, _, _, _, h, _⟩ | ⟨_, _, h⟩ | ⟨_, _, h, _⟩ <;> cases h
    · simp [Flt.pos] at e
  have pz : ∀ {x : Flt}, Stands f x 0 → x.pos = (Flt.fin false 0).pos := by
    intro x h; rw [h.2]; simp [Flt.pos]
  -- a filter that has only seen zeros
  have step : ∀ g : Iir Flt, Alike N id (iirNew b0 b a) g → (iirStep f N g (.fin false 0)).1.pos = (Flt.fin false 0).pos ∧
      Alike N id (iirNew b0 b a) (iirStep f N g (.fin false 0)).2 := by
    intro g hg
    have sum : ∀ n i y, i + n ≤ N → Stands f y 0 → Stands f (iirSum f g n i y) 0 := by
      intro n
      induction n with
      | zero => intro i y _ h; exact h
      | succ n ih =>
        intro i y hi hy
        simp only [iirSum]
        refine ih _ _ (by omega) (add_zero_stands hf hy (add_zero_stands hf ?_ ?_))
        · rw [hg.b]; exact mul_zero_stands hf (hb i (by omega)) (st (hg.x i (by omega)).1 (hg.x i (by omega)).2.2)
        · rw [hg.a]; exact mul_zero_stands hf (ha i (by omega)) (st (hg.y i (by omega)).1 (hg.y i (by omega)).2.2)
    have hs : Stands f (iirStep f N g (.fin false 0)).1 0 :=
      sum N 0 _ (by omega) (by rw [hg.b0]; exact mul_zero_stands hf h0 (zero_stands' f hf))
    refine ⟨pz hs, hg.b0, hg.b, hg.a, ?_, ?_⟩ <;> intro i hi
    · rw [(iirStep_x f N g _ i hi).1]
      by_cases h0 : i = 0
      · rw [if_pos h0]; exact ⟨rfl, hz0, hz0⟩
      · rw [if_neg h0]; exact hg.x _ (by omega)
    · rw [(iirStep_x f N g _ i hi).2]
      by_cases h0 : i = 0
      · rw [if_pos h0]; exact ⟨pz hs, hz0, Proper.of hs.1⟩
      · rw [if_neg h0]; exact hg.y _ (by omega)
  have key : ∀ k (g : Iir Flt), Alike N id (iirNew b0 b a) g → (iirRun f N g (List.replicate k (.fin false 0) ++ xs)).map Flt.pos =
      List.replicate k (Flt.fin false 0).pos ++ (iirRun f N (iirNew b0 b a) xs).map Flt.pos := by
    intro k
    induction k with
    | zero =>
      intro g hg
      have := alike_run (Change.same f) xs hg fun x h => Proper.of (hx x h)
      simpa using this
    | succ k ih =>
      intro g hg
      obtain ⟨s1, s2⟩ := step g hg
      simp only [List.replicate_succ, List.cons_append, iirRun, List.map_cons]
      rw [s1, ih _ s2]
  exact key k _ ⟨rfl, rfl, rfl, fun _ _ => ⟨rfl, hz0, hz0⟩, fun _ _ => ⟨rfl, hz0, hz0⟩⟩

/-! ## What the outputs do not do -/

theorem positive_binary {p : Nat} {e : Int} {q : ℚ} (h : IsBinary p e q) (hq : 0 < q) : (2 : ℚ) ^ e ≤ q := by
  obtain ⟨m, k, _, hk, rfl⟩ := h
  have hp : (0 : ℚ) < 2 ^ k := by positivity
  have hm : (0 : ℚ) < m := pos_of_mul_pos_left hq hp.le
  have hm : (1 : ℚ) ≤ m := by exact_mod_cast (by exact_mod_cast hm : (0 : Int) < m)
  calc (2 : ℚ) ^ e ≤ 2 ^ k := zpow_le_zpow_right₀ (by norm_num) hk
    _ = 1 * 2 ^ k := (one_mul _).symm
    _ ≤ m * 2 ^ k := mul_le_mul_of_nonneg_right hm hp.le

theorem exact_decay (q : ℚ) (n : Nat) :
    (Iir.run 1 (Iir.new (1 : ℚ) (fun _ => 0) fun _ => 3 / 4) (q :: List.replicate n 0))[n]? = some ((3 / 4) ^ n * q) := by
  have key : ∀ n (g : Iir ℚ), g.b0 = 1 → g.b = (fun _ => 0) → g.a = (fun _ => 3 / 4) →
      (Iir.run 1 g (List.replicate (n + 1) 0))[n]? = some ((3 / 4) ^ (n + 1) * g.y 0) := by
    intro n
    induction n with
    | zero =>
      intro g h1 h2 h3
      simp only [List.replicate_succ, Iir.run, List.getElem?_cons_zero, Iir.step_fst, h1, h2, h3]
      simp
    | succ n ih =>
      intro g h1 h2 h3
      rw [List.replicate_succ]
      simp only [Iir.run, List.getElem?_cons_succ]
      rw [ih (Iir.step 1 g 0).2 h1 h2 h3, (Iir.step_x 1 g 0 0 (by omega)).2, if_pos rfl, Iir.step_fst, h1, h2, h3]
      simp
      ring
  cases n with
  | zero => simp [Iir.run, Iir.step_fst, Iir.new]
  | succ n =>
    simp only [Iir.run, List.getElem?_cons_succ]
    rw [key n (Iir.step 1 _ q).2 rfl rfl rfl, (Iir.step_x 1 _ q 0 (by omega)).2, if_pos rfl, Iir.step_fst]
    simp [Iir.new]

theorem ratio_stands {f : Fmt} (hf : f = .double ∨ f = .single) : Stands f (.fin false (3 / 4)) (3 / 4) := by
  refine ⟨⟨by norm_num, by linarith [(fmt_consts hf).2.2.2, (by norm_num : (3 : ℚ) / 4 ≤ 2 ^ 100)], 3, -2, ?_, ?_, ?_⟩, rfl⟩
  · rcases hf with rfl | rfl <;> norm_num [Fmt.single, Fmt.double]
  · rcases hf with rfl | rfl <;> decide
  · norm_num

theorem zero_add_stands {f : Fmt} (hf : f = .double ∨ f = .single) {x y : Flt} {q : ℚ} (hx : Stands f x 0) (hy : Stands f y q) :
    Stands f (f.add x y) q := by
  have := add_stands hf hx hy
  rw [zero_add, Fmt.srnd_self (prec_pos hf) hy.binary] at this
  exact this hy.abs_le

/-- A filter does not forget: `y[n] = x[n] + 3 / 4 * y[n - 1]` never gives zero again after a positive number, although the exact outputs
tend to zero. -/
theorem C136_forget_refuted (f : Fmt) (hf : f = .double ∨ f = .single) (x : Flt) (q : ℚ) (hx : Stands f x q) (hq : 0 < q) (n : Nat) :
    (∃ y r, (iirRun f 1 (iirNew (.fin false 1) (fun _ => .fin false 0) fun _ => .fin false (3 / 4)) (x :: List.replicate n (.fin false 0)))[n]? = some y ∧
      Stands f y r ∧ 2 ^ f.emin ≤ r) ∧
    (Iir.run 1 (Iir.new (1 : ℚ) (fun _ => 0) fun _ => 3 / 4) (q :: List.replicate n 0))[n]? = some ((3 / 4) ^ n * q) := by
  refine ⟨?_, exact_decay q n⟩
  have hz := zero_stands' f hf
  have h1 : Stands f (.fin false 1) 1 := by simpa using small_stands hf 1 (by norm_num)
  have hη := Fmt.pow_pos f.emin
  have hp := prec_pos hf
  have hηb : IsBinary f.prec f.emin (2 ^ f.emin : ℚ) := ⟨1, f.emin, by rcases hf with rfl | rfl <;> norm_num [Fmt.single, Fmt.double], le_rfl, by simp⟩
  -- three quarters of a positive number
  have hr : ∀ r, 2 ^ f.emin ≤ r → 2 ^ f.emin ≤ f.srnd (3 / 4 * r) := by
    intro r hr
    refine le_trans ?_ (Fmt.srnd_mono hp (mul_le_mul_of_nonneg_left hr (by norm_num)))
    have hnear := Fmt.srnd_nearest (f := f) hp (3 / 4 * 2 ^ f.emin)
    have h2 := hnear.2 _ hηb
    rw [show (2 : ℚ) ^ f.emin - 3 / 4 * 2 ^ f.emin = 1 / 4 * 2 ^ f.emin by ring,
      abs_of_pos (by positivity : (0 : ℚ) < 1 / 4 * 2 ^ f.emin)] at h2
    have h3 := (abs_le.1 h2).1
    exact positive_binary hnear.1 (by linarith)
  have step : ∀ (g : Iir Flt) (r v : ℚ), g.b0 = .fin false 1 → g.b = (fun _ => .fin false 0) → g.a = (fun _ => .fin false (3 / 4)) →
      Stands f (g.y 0) r → Stands f (g.x 0) v → 0 ≤ r → ∃ r', Stands f (iirStep f 1 g (.fin false 0)).1 r' ∧ r' = f.srnd (3 / 4 * r) := by
    intro g r v e1 e2 e3 hy hv hr0
    refine ⟨_, ?_, rfl⟩
    simp only [iirStep, iirSum, e1, e2, e3]
    have hyM := hy.1
    have s1 := mul_stands hf (ratio_stands hf) hy (by
      obtain ⟨s, m, e, rfl⟩ := hy.fin
      rw [e] at hyM
      have : |(Flt.fin s m).val| ≤ f.maxVal := by
        have := hyM.1; have := hyM.2.1
        cases s <;> simp only [Flt.val, if_true, if_false, Bool.false_eq_true] <;> rw [abs_le] <;> constructor <;> linarith
      rw [abs_mul, abs_of_nonneg (by norm_num : (0 : ℚ) ≤ 3 / 4)]
      have := abs_nonneg (Flt.fin s m).val
      linarith)
    have s2 : Stands f (f.add (f.mul (.fin false 0) (g.x 0)) (f.mul (.fin false (3 / 4)) (g.y 0))) (f.srnd (3 / 4 * r)) := by
      have z1 : Stands f (f.mul (.fin false 0) (g.x 0)) 0 := by rw [f.mul_comm]; exact mul_zero_stands hf hv hz
      exact zero_add_stands hf z1 s1
    exact zero_add_stands hf (mul_zero_stands hf h1 hz) s2
  have key : ∀ n (g : Iir Flt) (r v : ℚ), g.b0 = .fin false 1 → g.b = (fun _ => .fin false 0) → g.a = (fun _ => .fin false (3 / 4)) →
      Stands f (g.y 0) r → Stands f (g.x 0) v → 2 ^ f.emin ≤ r →
      ∃ y r, (iirRun f 1 g (List.replicate (n + 1) (.fin false 0)))[n]? = some y ∧ Stands f y r ∧ 2 ^ f.emin ≤ r := by
    intro n
    induction n with
    | zero =>
      intro g r v e1 e2 e3 hy hv h
      obtain ⟨r', s1, s2⟩ := step g r v e1 e2 e3 hy hv (by linarith)
      exact ⟨_, r', rfl, s1, s2 ▸ hr r h⟩
    | succ n ih =>
      intro g r v e1 e2 e3 hy hv h
      obtain ⟨r', s1, s2⟩ := step g r v e1 e2 e3 hy hv (by linarith)
      rw [List.replicate_succ]
      simp only [iirRun, List.getElem?_cons_succ]
      exact ih _ r' 0 e1 e2 e3 (by rw [(iirStep_x f 1 g _ 0 (by omega)).2, if_pos rfl]; exact s1)
        (by rw [(iirStep_x f 1 g _ 0 (by omega)).1, if_pos rfl]; exact hz) (s2 ▸ hr r h)
  have first : Stands f (iirStep f 1 (iirNew (.fin false 1) (fun _ => .fin false 0) fun _ => .fin false (3 / 4)) x).1 q := by
    simp only [iirStep, iirSum, iirNew]
    have s1 := mul_stands hf h1 hx (by
      obtain ⟨s, m, e, rfl⟩ := hx.fin
      have hxM := hx.1
      rw [e] at hxM
      have := hxM.1; have := hxM.2.1
      rw [one_mul]
      cases s <;> simp only [Flt.val, if_true, if_false, Bool.false_eq_true] <;> rw [abs_le] <;> constructor <;> linarith)
    rw [one_mul, Fmt.srnd_self hp hx.binary] at s1
    exact add_zero_stands hf s1 (add_zero_stands hf (mul_zero_stands hf hz hz) (mul_zero_stands hf (ratio_stands hf) hz))
  have hqη : 2 ^ f.emin ≤ q := positive_binary hx.binary hq
  cases n with
  | zero => exact ⟨_, q, rfl, first, hqη⟩
  | succ n =>
    simp only [iirRun, List.getElem?_cons_succ]
    exact key n _ q q rfl rfl rfl (by rw [(iirStep_x f 1 _ x 0 (by omega)).2, if_pos rfl]; exact first)
      (by rw [(iirStep_x f 1 _ x 0 (by omega)).1, if_pos rfl]; exact hx) hqη

theorem exact_settle (n : Nat) :
    (Iir.run 1 (Iir.new (1 / 2 ^ 12 : ℚ) (fun _ => 0) fun _ => 1 - 1 / 2 ^ 12) ((2 ^ 12 - 1 / 2 ^ 8) :: List.replicate n 1))[n]? =
      some (1 - 1 / 2 ^ 20 * (1 - 1 / 2 ^ 12) ^ n) := by
  have key : ∀ n (g : Iir ℚ), g.b0 = 1 / 2 ^ 12 → g.b = (fun _ => 0) → g.a = (fun _ => 1 - 1 / 2 ^ 12) →
      (Iir.run 1 g (List.replicate (n + 1) 1))[n]? = some (1 - (1 - g.y 0) * (1 - 1 / 2 ^ 12) ^ (n + 1)) := by
    intro n
    induction n with
    | zero =>
      intro g h1 h2 h3
      simp only [List.replicate_succ, Iir.run, List.getElem?_cons_zero, Iir.step_fst, h1, h2, h3]
      simp
      ring
    | succ n ih =>
      intro g h1 h2 h3
      rw [List.replicate_succ]
      simp only [Iir.run, List.getElem?_cons_succ]
      rw [ih (Iir.step 1 g 1).2 h1 h2 h3, (Iir.step_x 1 g 1 0 (by omega)).2, if_pos rfl, Iir.step_fst, h1, h2, h3]
      simp
      ring
  cases n with
  | zero => simp [Iir.run, Iir.step_fst, Iir.new]; norm_num
  | succ n =>
    simp only [Iir.run, List.getElem?_cons_succ]
    rw [key n (Iir.step 1 _ _).2 rfl rfl rfl, (Iir.step_x 1 _ _ 0 (by omega)).2, if_pos rfl, Iir.step_fst]
    simp [Iir.new]
    left
    norm_num

/-- A filter with unit gain does not settle: `y[n] = 2^-12 * x[n] + (1 - 2^-12) * y[n - 1]` stays at 1 - 2^-20 for ever when the input is 1,
although the exact outputs tend to 1. -/
theorem C136_settle_refuted (n : Nat) :
    (Iir.run 1 (Iir.new (1 / 2 ^ 12 : ℚ) (fun _ => 0) fun _ => 1 - 1 / 2 ^ 12) ((2 ^ 12 - 1 / 2 ^ 8) :: List.replicate n 1))[n]? =
      some (1 - 1 / 2 ^ 20 * (1 - 1 / 2 ^ 12) ^ n) ∧
    (iirRun .single 1 (iirNew (.fin false (1 / 2 ^ 12)) (fun _ => .fin false 0) fun _ => .fin false (1 - 1 / 2 ^ 12))
      (.fin false (2 ^ 12 - 1 / 2 ^ 8) :: List.replicate n (.fin false 1)))[n]? = some (.fin false (1 - 1 / 2 ^ 20)) := by
  refine ⟨exact_settle n, ?_⟩
  have key : ∀ n (g : Iir Flt), g.b0 = .fin false (1 / 2 ^ 12) → g.b = (fun _ => .fin false 0) → g.a = (fun _ => .fin false (1 - 1 / 2 ^ 12)) →
      g.x 0 = .fin false 1 ∨ g.x 0 = .fin false (2 ^ 12 - 1 / 2 ^ 8) → g.y 0 = .fin false (1 - 1 / 2 ^ 20) →
      (iirRun .single 1 g (List.replicate (n + 1) (.fin false 1)))[n]? = some (.fin false (1 - 1 / 2 ^ 20)) := by
    intro n
    have out : ∀ (g : Iir Flt), g.b0 = .fin false (1 / 2 ^ 12) → g.b = (fun _ => .fin false 0) → g.a = (fun _ => .fin false (1 - 1 / 2 ^ 12)) →
        g.x 0 = .fin false 1 ∨ g.x 0 = .fin false (2 ^ 12 - 1 / 2 ^ 8) → g.y 0 = .fin false (1 - 1 / 2 ^ 20) →
        (iirStep .single 1 g (.fin false 1)).1 = .fin false (1 - 1 / 2 ^ 20) := by
      intro g h1 h2 h3 h4 h5
      simp only [iirStep, iirSum, h1, h2, h3, h5]
      rcases h4 with h4 | h4 <;> rw [h4] <;> decide +kernel
    induction n with
    | zero =>
      intro g h1 h2 h3 h4 h5
      simp only [List.replicate_succ, iirRun, List.getElem?_cons_zero]
      rw [out g h1 h2 h3 h4 h5]
    | succ n ih =>
      intro g h1 h2 h3 h4 h5
      rw [List.replicate_succ]
      simp only [iirRun, List.getElem?_cons_succ]
      refine ih _ h1 h2 h3 (.inl ?_) ?_
      · rw [(iirStep_x .single 1 g _ 0 (by omega)).1, if_pos rfl]
      · rw [(iirStep_x .single 1 g _ 0 (by omega)).2, if_pos rfl]; exact out g h1 h2 h3 h4 h5
  have first : (iirStep .single 1 (iirNew (.fin false (1 / 2 ^ 12)) (fun _ => .fin false 0) fun _ => .fin false (1 - 1 / 2 ^ 12))
      (.fin false (2 ^ 12 - 1 / 2 ^ 8))).1 = .fin false (1 - 1 / 2 ^ 20) := by decide +kernel
  cases n with
  | zero => simp only [iirRun, List.getElem?_cons_zero]; rw [first]
  | succ n =>
    simp only [iirRun, List.getElem?_cons_succ]
    refine key n _ rfl rfl rfl (.inr ?_) ?_
    · rw [(iirStep_x .single 1 _ _ 0 (by omega)).1, if_pos rfl]
    · rw [(iirStep_x .single 1 _ _ 0 (by omega)).2, if_pos rfl]; exact first

/-- A filter is not additive: the output for the input 5 is not the sum of those for 2 and 3. -/
theorem C136_linear_refuted : ∃ b0 : Flt, IsFloat .single b0 ∧
    iirRun .single 1 (iirNew b0 (fun _ => .fin false 0) fun _ => .fin false 0) [Fmt.single.add (.fin false 2) (.fin false 3)] ≠
      List.zipWith Fmt.single.add (iirRun .single 1 (iirNew b0 (fun _ => .fin false 0) fun _ => .fin false 0) [.fin false 2])
        (iirRun .single 1 (iirNew b0 (fun _ => .fin false 0) fun _ => .fin false 0) [.fin false 3]) :=
  ⟨.fin false (1 + 1 / 2 ^ 23), ⟨by norm_num, by decide +kernel, 2 ^ 23 + 1, -23, by norm_num [Fmt.single], by decide, by norm_num⟩, by decide +kernel⟩

/-! ## Velocity -/

/-- `velocity` is the rounded difference of the last two outputs, and there is none for filters of order below two. -/
theorem C136_velocity (f : Fmt) (N : Nat) (c : Iir Flt) (x x' : Flt) :
    iirVelocity f N (iirAfter f N c [x, x']) = if N < 2 then .ub else
      match iirRun f N c [x, x'] with
      | [y, y'] => .ok (f.sub y' y)
      | _ => .ub := by
  unfold iirVelocity
  by_cases h : N < 2
  · rw [if_pos h, if_pos h]
  · rw [if_neg h, if_neg h]
    simp only [iirAfter, iirRun]
    rw [(iirStep_x f N _ x' 0 (by omega)).2, (iirStep_x f N _ x' 1 (by omega)).2, if_pos rfl, if_neg (by omega)]
    rw [show 1 - 1 = 0 from rfl, (iirStep_x f N c x 0 (by omega)).2, if_pos rfl]

end Flut
