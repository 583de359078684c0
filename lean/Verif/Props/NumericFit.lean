import Verif.Props.Numeric
import Verif.Props.Tools
import Mathlib.Tactic.Positivity

/-!
# Regression, interpolation and piecewise linear functions (C66, C67, C71)
-/

namespace Flut

variable {K : Type} [Field K] [LinearOrder K]

/-! ## C66 -/

/-- The sum of the squared residuals of a line. -/
def sse (f : Linear K) (xs ys : List K) : K := ((xs.zip ys).map fun p => (p.2 - (f.offset + f.slope * p.1)) ^ 2).sum

theorem regressionLoop_eq (ax ay : K) (l : List (K × K)) (num den : K) : regressionLoop ax ay l num den =
    (num + (l.map fun p => (p.1 - ax) * (p.2 - ay)).sum, den + (l.map fun p => (p.1 - ax) * (p.1 - ax)).sum) := by
  induction l generalizing num den with
  | nil => simp [regressionLoop]
  | cons p l ih =>
    obtain ⟨x, y⟩ := p
    rw [regressionLoop, ih]
    simp only [List.map_cons, List.sum_cons, Prod.mk.injEq]
    exact ⟨by ring, by ring⟩

theorem sse_expand (ax ay o s : K) (l : List (K × K)) :
    (l.map fun p => (p.2 - (o + s * p.1)) ^ 2).sum =
      (l.map fun p => (p.2 - ay) ^ 2).sum - 2 * s * (l.map fun p => (p.1 - ax) * (p.2 - ay)).sum
      + s ^ 2 * (l.map fun p => (p.1 - ax) * (p.1 - ax)).sum
      + 2 * (ay - o - s * ax) * ((l.map fun p => p.2 - ay).sum - s * (l.map fun p => p.1 - ax).sum)
      + (l.length : K) * (ay - o - s * ax) ^ 2 := by
  induction l with
  | nil => simp
  | cons p l ih =>
    simp only [List.map_cons, List.sum_cons, ih, List.length_cons]
    push_cast
    ring

theorem sum_sub_const (l : List (K × K)) (f : K × K → K) (c : K) :
    (l.map fun p => f p - c).sum = (l.map f).sum - (l.length : K) * c := by
  induction l with
  | nil => simp
  | cons p l ih =>
    simp only [List.map_cons, List.sum_cons, ih, List.length_cons]
    push_cast
    ring

variable [IsStrictOrderedRing K]

theorem sum_sq_eq_zero (l : List (K × K)) (c : K) (h : (l.map fun p => (p.1 - c) * (p.1 - c)).sum = 0) : ∀ p ∈ l, p.1 = c := by
  induction l with
  | nil => simp
  | cons q l ih =>
    rw [List.map_cons, List.sum_cons] at h
    have h1 : 0 ≤ (l.map fun p => (p.1 - c) * (p.1 - c)).sum := by
      apply sum_nonneg_of
      intro x hx
      obtain ⟨p, _, rfl⟩ := List.mem_map.1 hx
      exact mul_self_nonneg _
    have h2 := mul_self_nonneg (q.1 - c)
    have h3 : (q.1 - c) * (q.1 - c) = 0 := by linarith
    rw [List.forall_mem_cons]
    exact ⟨sub_eq_zero.1 (mul_self_eq_zero.1 h3), ih (by linarith)⟩

/-- The line found by the general form, with the data that determine it. -/
theorem linearRegression_facts (xs ys : List K) (hlen : xs.length = ys.length) (i j : Nat) (hi : i < xs.length) (hj : j < xs.length)
    (hij : xs[i] ≠ xs[j]) :
    ∃ (f : Linear K) (n den : K), linearRegression xs ys = .ok f ∧ 0 < n ∧ 0 < den ∧ ∃ ax ay, f.offset = ay - f.slope * ax ∧
      ∀ g : Linear K, sse g xs ys = sse f xs ys + n * (ay - g.offset - g.slope * ax) ^ 2 + den * (g.slope - f.slope) ^ 2 := by
  have hxne : xs ≠ [] := by rintro rfl; simp at hi
  have hyne : ys ≠ [] := by rintro rfl; simp at hlen; exact hxne hlen
  have hx : (xs.zip ys).map Prod.fst = xs := List.map_fst_zip (by omega)
  have hy : (xs.zip ys).map Prod.snd = ys := List.map_snd_zip (by omega)
  have hl : (xs.zip ys).length = xs.length := by simp [hlen]
  set l := xs.zip ys with hldef
  have hn : (0 : K) < (xs.length : K) := by
    have : 0 < xs.length := by omega
    exact_mod_cast this
  set ax := xs.sum / (xs.length : K) with hax
  set ay := ys.sum / (ys.length : K) with hay
  have hsx : (l.map fun p => p.1 - ax).sum = 0 := by
    rw [sum_sub_const l Prod.fst ax, hx, hl, hax]
    field_simp
    ring
  have hsy : (l.map fun p => p.2 - ay).sum = 0 := by
    rw [sum_sub_const l Prod.snd ay, hy, hl, hay, ← hlen]
    field_simp
    ring
  set den := (l.map fun p => (p.1 - ax) * (p.1 - ax)).sum with hden
  set num := (l.map fun p => (p.1 - ax) * (p.2 - ay)).sum with hnum
  have hdnn : 0 ≤ den := by
    apply sum_nonneg_of
    intro x hx
    obtain ⟨p, _, rfl⟩ := List.mem_map.1 hx
    exact mul_self_nonneg _
  have hdne : den ≠ 0 := by
    intro h
    have := sum_sq_eq_zero l ax h
    apply hij
    have key : ∀ k (hk : k < xs.length), xs[k] = ax := by
      intro k hk
      have := this l[k] (List.getElem_mem (by rw [hl]; exact hk))
      simpa [hldef] using this
    rw [key i hi, key j hj]
  refine ⟨⟨ay - num / den * ax, num / den⟩, xs.length, den, ?_, hn, lt_of_le_of_ne hdnn (Ne.symm hdne), ax, ay, rfl, ?_⟩
  · unfold linearRegression
    rw [if_neg (by omega : ¬ xs.length ≠ ys.length), C42_average xs hxne, Res.bind_ok, C42_average ys hyne, Res.bind_ok]
    simp only [regressionLoop_eq, zero_add]
    exact if_neg hdne
  · intro g
    unfold sse
    rw [sse_expand ax ay g.offset g.slope, sse_expand ax ay (ay - num / den * ax) (num / den), hsx, hsy, ← hden, ← hnum, hl]
    field_simp
    ring

/-- The line returned has the least sum of squared residuals, and is the only one that has it. -/
theorem C66_least_squares (xs ys : List K) (hlen : xs.length = ys.length) (i j : Nat) (hi : i < xs.length) (hj : j < xs.length)
    (hij : xs[i] ≠ xs[j]) :
    ∃ f, linearRegression xs ys = .ok f ∧ ∀ g : Linear K, sse f xs ys ≤ sse g xs ys ∧ (sse g xs ys ≤ sse f xs ys → g = f) := by
  obtain ⟨f, n, den, hf, hn, hd, ax, ay, ho, hg⟩ := linearRegression_facts xs ys hlen i j hi hj hij
  refine ⟨f, hf, fun g => ?_⟩
  have h1 := mul_nonneg hn.le (sq_nonneg (ay - g.offset - g.slope * ax))
  have h2 := mul_nonneg hd.le (sq_nonneg (g.slope - f.slope))
  rw [hg g]
  refine ⟨by linarith, fun h => ?_⟩
  have h3 : n * (ay - g.offset - g.slope * ax) ^ 2 = 0 := by linarith
  have h4 : den * (g.slope - f.slope) ^ 2 = 0 := by linarith
  have h5 : g.slope = f.slope := by
    rcases mul_eq_zero.1 h4 with h | h
    · exact absurd h hd.ne'
    · exact sub_eq_zero.1 (pow_eq_zero_iff (by decide) |>.1 h)
  have h6 : ay - g.offset - g.slope * ax = 0 := by
    rcases mul_eq_zero.1 h3 with h | h
    · exact absurd h hn.ne'
    · exact pow_eq_zero_iff (by decide) |>.1 h
  have h7 : g.offset = f.offset := by rw [ho, ← h5]; linarith
  cases g; cases f
  simp only [Linear.mk.injEq]
  exact ⟨h7, h5⟩

/-- Points on a line give this line. -/
theorem C66_recovers (xs : List K) (g : Linear K) (i j : Nat) (hi : i < xs.length) (hj : j < xs.length) (hij : xs[i] ≠ xs[j]) :
    linearRegression xs (xs.map fun x => g.offset + g.slope * x) = .ok g := by
  obtain ⟨f, hf, h⟩ := C66_least_squares xs (xs.map fun x => g.offset + g.slope * x) (by simp) i j hi hj hij
  have h0 : sse g xs (xs.map fun x => g.offset + g.slope * x) = 0 := by
    unfold sse
    clear hf h hij
    clear hi hj
    induction xs with
    | nil => simp
    | cons x xs ih => simpa using ih
  have hnn : 0 ≤ sse f xs (xs.map fun x => g.offset + g.slope * x) := by
    apply sum_nonneg_of
    intro x hx
    obtain ⟨p, _, rfl⟩ := List.mem_map.1 hx
    exact sq_nonneg _
  rw [hf, (h g).2 (by rw [h0]; exact hnn)]

omit [LinearOrder K] [IsStrictOrderedRing K] in
theorem regressionStepLoop_eq (ax ay s : K) (ys : List K) (x num : K) : regressionStepLoop ax ay s ys x num =
    num + (((List.range ys.length).map fun i : Nat => x + (i : K) * s).zip ys |>.map fun p => (p.1 - ax) * (p.2 - ay)).sum := by
  induction ys generalizing x num with
  | nil => simp [regressionStepLoop]
  | cons y ys ih =>
    rw [regressionStepLoop, ih, List.length_cons, List.range_succ_eq_map]
    simp only [List.map_cons, List.map_map, List.zip_cons_cons, List.sum_cons, Nat.cast_zero, zero_mul, add_zero]
    have : (List.map (fun i : Nat => x + s + (i : K) * s) (List.range ys.length)) =
        List.map ((fun i : Nat => x + (i : K) * s) ∘ Nat.succ) (List.range ys.length) := by
      apply List.map_congr_left
      intro i _
      simp only [Function.comp]
      push_cast
      ring
    rw [this]
    ring

theorem sum_arith (x s : K) (n : Nat) : ((List.range n).map fun i : Nat => x + (i : K) * s).sum = n * x + s * (n * (n - 1) / 2) := by
  induction n with
  | zero => simp
  | succ n ih =>
    rw [List.range_succ, List.map_append, List.sum_append, ih]
    simp only [List.map_cons, List.map_nil, List.sum_cons, List.sum_nil]
    push_cast
    field_simp
    ring

theorem sum_arith_sq (c s : K) (n : Nat) : ((List.range n).map fun i : Nat => (c + (i : K) * s) * (c + (i : K) * s)).sum =
    n * c ^ 2 + c * s * (n * (n - 1)) + s ^ 2 * (n * (n - 1) * (2 * n - 1) / 6) := by
  induction n with
  | zero => simp
  | succ n ih =>
    rw [List.range_succ, List.map_append, List.sum_append, ih]
    simp only [List.map_cons, List.map_nil, List.sum_cons, List.sum_nil]
    push_cast
    field_simp
    ring

/-- The form with a fixed step does what the general form does on `x_begin + i * x_step`. -/
theorem C66_fixed_step (xb st : K) (ys : List K) :
    linearRegressionStep xb st ys = linearRegression ((List.range ys.length).map fun i : Nat => xb + (i : K) * st) ys := by
  by_cases hy : ys = []
  · subst hy
    unfold linearRegressionStep linearRegression
    simp [Tools.average, Bind.bind, Res.bind]
  set xs := (List.range ys.length).map fun i : Nat => xb + (i : K) * st with hxs
  have hxl : xs.length = ys.length := by simp [hxs]
  have hx : xs ≠ [] := by
    intro h
    rw [h] at hxl
    exact hy (List.length_eq_zero_iff.1 hxl.symm)
  obtain ⟨m, hm⟩ : ∃ m, ys.length = m + 1 := ⟨ys.length - 1, by
    have : ys.length ≠ 0 := fun h => hy (List.length_eq_zero_iff.1 h)
    omega⟩
  have hm0 : ((m + 1 : Nat) : K) ≠ 0 := by
    have : m + 1 ≠ 0 := by omega
    exact_mod_cast this
  have hax : xs.sum / (xs.length : K) = xb + (((ys.length - 1 : Nat) : K) * st) / 2 := by
    rw [hxl, hm, hxs, sum_arith, hm]
    simp only [Nat.add_sub_cancel]
    field_simp
    push_cast
    ring
  set ax := xb + (((ys.length - 1 : Nat) : K) * st) / 2 with haxd
  have hfst : (xs.zip ys).map Prod.fst = xs := List.map_fst_zip (by omega)
  have hden : ((xs.zip ys).map fun p => (p.1 - ax) * (p.1 - ax)).sum = st ^ 2 * ((m : K) * (m + 1) * (m + 2) / 12) := by
    have : ((xs.zip ys).map fun p => (p.1 - ax) * (p.1 - ax)) = (((xs.zip ys).map Prod.fst).map fun x => (x - ax) * (x - ax)) := by
      rw [List.map_map]; rfl
    rw [this, hfst, hxs, List.map_map]
    have e : ((fun x => (x - ax) * (x - ax)) ∘ fun i : Nat => xb + (i : K) * st) = fun i : Nat => ((xb - ax) + (i : K) * st) * ((xb - ax) + (i : K) * st) := by
      funext i
      simp only [Function.comp]
      ring
    rw [e, sum_arith_sq, hm, haxd, hm]
    simp only [Nat.add_sub_cancel]
    push_cast
    field_simp
    ring
  unfold linearRegressionStep linearRegression
  rw [if_neg (by omega : ¬ xs.length ≠ ys.length), C42_average xs hx, Res.bind_ok, hax, C42_average ys hy, Res.bind_ok, Res.bind_ok]
  simp only [regressionLoop_eq, zero_add, hden, regressionStepLoop_eq]
  rw [← hxs]
  by_cases hst : st = 0
  · subst hst
    rw [if_pos (by ring), if_pos (by ring)]
  · rw [if_neg (mul_ne_zero (by norm_num) hst)]
    have e2 : ((ys.length - 1 : Nat) : K) * st / 2 * (((ys.length - 1 : Nat) : K) * st / 2 + st) * (2 * (((ys.length - 1 : Nat) : K) * st / 2) + st) / (3 * st)
        = st ^ 2 * ((m : K) * (m + 1) * (m + 2) / 12) := by
      rw [hm]
      simp only [Nat.add_sub_cancel]
      field_simp
      ring
    rw [e2]

example : linearRegression [(1 : ℚ), 2, 4] [3, 5, 9] = .ok ⟨1, 2⟩ := by decide +kernel
example : linearRegressionStep (1 : ℚ) 2 [0, 1, 5] = linearRegression [(1 : ℚ), 3, 5] [0, 1, 5] := by decide +kernel
example : linearRegression [(1 : ℚ), 3, 5] [0, 1, 5] = .ok ⟨-7/4, 5/4⟩ := by decide +kernel

/-- Different lengths are refused; equal abscissae divide by zero. -/
theorem C66_no_line (xs ys : List K) : (xs.length ≠ ys.length → linearRegression xs ys = .throws .assertion) ∧
    (xs.length = ys.length → xs ≠ [] → (∃ c, ∀ x ∈ xs, x = c) → linearRegression xs ys = .ub) := by
  constructor
  · intro h
    unfold linearRegression
    rw [if_pos h]
  · rintro h hx ⟨c, hc⟩
    have hy : ys ≠ [] := by rintro rfl; simp at h; exact hx h
    unfold linearRegression
    rw [if_neg (by omega : ¬ xs.length ≠ ys.length), C42_average xs hx, Res.bind_ok, C42_average ys hy, Res.bind_ok]
    simp only [regressionLoop_eq, zero_add]
    apply if_pos
    have hn : (xs.length : K) ≠ 0 := by
      have : xs.length ≠ 0 := fun h => hx (List.length_eq_zero_iff.1 h)
      exact_mod_cast this
    have hrep : xs = List.replicate xs.length c := List.eq_replicate_iff.2 ⟨rfl, hc⟩
    have hs : xs.sum / (xs.length : K) = c := by
      rw [div_eq_iff hn]
      conv_lhs => rw [hrep]
      rw [List.sum_replicate, nsmul_eq_mul, mul_comm]
    rw [hs]
    have : ∀ l : List (K × K), (∀ p ∈ l, p.1 = c) → (l.map fun p => (p.1 - c) * (p.1 - c)).sum = 0 := by
      intro l
      induction l with
      | nil => simp
      | cons p l ih =>
        intro hp
        rw [List.map_cons, List.sum_cons, ih fun q hq => hp q (List.mem_cons_of_mem _ hq), hp p (List.mem_cons_self ..)]
        ring
    apply this
    intro p hp
    exact hc _ (List.of_mem_zip hp).1

/-! ## C67 -/

/-- Samples in the order of their keys. -/
def KeySorted (l : List (K × K)) : Prop := l.Pairwise fun a b => a.1 ≤ b.1

omit [Field K] [IsStrictOrderedRing K] in
theorem KeySorted.le {l : List (K × K)} (h : KeySorted l) {i j : Nat} (hij : i ≤ j) (hj : j < l.length) : (l[i]'(by omega)).1 ≤ l[j].1 := by
  rcases Nat.lt_or_ge i j with h1 | h1
  · exact List.pairwise_iff_getElem.1 h i j (by omega) hj h1
  · obtain rfl : i = j := by omega
    exact le_rfl

omit [Field K] [IsStrictOrderedRing K] in
/-- Where `upper_bound` points. -/
theorem upperBound_eq {l : List (K × K)} (key : K) (j : Nat) (hj : j ≤ l.length)
    (hlow : ∀ i (hi : i < j), (l[i]'(by omega)).1 ≤ key) (hup : ∀ (hj : j < l.length), key < l[j].1) : upperBound l key = j := by
  unfold upperBound
  rcases Nat.lt_or_ge j l.length with hlt | hge
  · rw [List.findIdx_eq hlt]
    exact ⟨by simpa using hup hlt, fun i hi => by simpa using hlow i hi⟩
  · obtain rfl : j = l.length := by omega
    apply List.findIdx_eq_length_of_false
    intro x hx
    obtain ⟨i, hi, rfl⟩ := List.mem_iff_getElem.1 hx
    simpa using hlow i hi

omit [IsStrictOrderedRing K] in
/-- Before the first key: the first value. -/
theorem C67_before (l : List (K × K)) (key : K) (hne : 0 < l.length) (h : key < l[0].1) (hs : KeySorted l) :
    interpolatedKey l key = .ok l[0].2 := by
  have hub := upperBound_eq (l := l) key 0 (by omega) (by intro i hi; omega) (fun _ => h)
  unfold interpolatedKey
  rw [if_neg (by simpa using List.ne_nil_of_length_pos (by omega : 0 < l.length))]
  simp only [hub]
  rw [if_neg (by omega)]
  simp [hne]

omit [IsStrictOrderedRing K] in
/-- From the last key on: the last value. -/
theorem C67_after (l : List (K × K)) (key : K) (hne : 0 < l.length) (h : l[l.length - 1].1 ≤ key) (hs : KeySorted l) :
    interpolatedKey l key = .ok l[l.length - 1].2 := by
  have hub := upperBound_eq (l := l) key l.length (by omega) (by intro i hi; exact (hs.le (by omega) (by omega)).trans h) (by intro hj; omega)
  unfold interpolatedKey
  rw [if_neg (by simpa using List.ne_nil_of_length_pos (by omega : 0 < l.length))]
  simp only [hub]
  rw [if_pos trivial]
  rw [List.getElem?_eq_getElem (by omega)]

omit [IsStrictOrderedRing K] in
/-- Between two neighbours: the point at `key` on the line through them. -/
theorem C67_between (l : List (K × K)) (key : K) (i : Nat) (hi : i + 1 < l.length) (h1 : l[i].1 ≤ key) (h2 : key < l[i + 1].1) (hs : KeySorted l) :
    interpolatedKey l key = .ok (l[i].2 + (key - l[i].1) / (l[i + 1].1 - l[i].1) * (l[i + 1].2 - l[i].2)) := by
  have hub := upperBound_eq (l := l) key (i + 1) (by omega) (by intro k hk; exact (hs.le (by omega) (by omega)).trans h1) (fun _ => h2)
  unfold interpolatedKey
  rw [if_neg (by simpa using List.ne_nil_of_length_pos (by omega : 0 < l.length))]
  simp only [hub]
  rw [if_neg (by omega), if_neg (by omega), Nat.add_sub_cancel, List.getElem?_eq_getElem (by omega), List.getElem?_eq_getElem hi]
  simp only
  rw [if_neg (sub_ne_zero.2 (ne_of_gt (lt_of_le_of_lt h1 h2)))]
  congr 1
  ring

omit [Field K] [IsStrictOrderedRing K] in
/-- One of the three cases always holds. -/
theorem C67_cases (l : List (K × K)) (key : K) (hne : 0 < l.length) : key < l[0].1 ∨ l[l.length - 1].1 ≤ key ∨
    ∃ (i : Nat) (hi : i + 1 < l.length), l[i].1 ≤ key ∧ key < l[i + 1].1 := by
  by_contra hcon
  obtain ⟨h1, hcon⟩ := not_or.1 hcon
  obtain ⟨h2, h3⟩ := not_or.1 hcon
  have : ∀ i (hi : i < l.length), l[i].1 ≤ key := by
    intro i
    induction i with
    | zero => intro _; exact not_lt.1 h1
    | succ i ih =>
      intro hi
      by_contra h
      exact h3 ⟨i, hi, ih (by omega), not_le.1 h⟩
  exact h2 (this _ (by omega))

omit [IsStrictOrderedRing K] in
/-- At the key of a sample, the last sample with this key. -/
theorem C67_at_sample (l : List (K × K)) (i : Nat) (hi : i < l.length) (hs : KeySorted l) (hlast : ∀ (h : i + 1 < l.length), l[i].1 < l[i + 1].1) :
    interpolatedKey l l[i].1 = .ok l[i].2 := by
  rcases Nat.lt_or_ge (i + 1) l.length with h | h
  · rw [C67_between l _ i h le_rfl (hlast h) hs]
    simp
  · obtain rfl : i = l.length - 1 := by omega
    exact C67_after l _ (by omega) le_rfl hs

/-- There is always a result, and it lies between any bounds of the values. -/
theorem C67_total (l : List (K × K)) (key lo hi : K) (hne : l ≠ []) (hs : KeySorted l) (hb : ∀ e ∈ l, lo ≤ e.2 ∧ e.2 ≤ hi) :
    ∃ v, interpolatedKey l key = .ok v ∧ lo ≤ v ∧ v ≤ hi := by
  have hpos : 0 < l.length := List.length_pos_iff.2 hne
  have hb' : ∀ i (hi' : i < l.length), lo ≤ l[i].2 ∧ l[i].2 ≤ hi := fun i h => hb _ (List.getElem_mem h)
  rcases C67_cases l key hpos with h | h | ⟨i, hi', h1, h2⟩
  · exact ⟨_, C67_before l key hpos h hs, hb' _ _⟩
  · exact ⟨_, C67_after l key hpos h hs, hb' _ _⟩
  · refine ⟨_, C67_between l key i hi' h1 h2 hs, ?_⟩
    obtain ⟨b1, b2⟩ := hb' i (by omega)
    obtain ⟨b3, b4⟩ := hb' (i + 1) hi'
    have hd : 0 < l[i + 1].1 - l[i].1 := by linarith
    set w := (key - l[i].1) / (l[i + 1].1 - l[i].1) with hw
    have w0 : 0 ≤ w := div_nonneg (by linarith) hd.le
    have w1 : w ≤ 1 := (div_le_one hd).2 (by linarith)
    constructor <;> nlinarith

omit [IsStrictOrderedRing K] in
/-- Without samples the assertion fails. -/
theorem C67_empty (key : K) : interpolatedKey [] key = .throws .assertion := rfl

example : interpolatedKey [((0 : ℚ), (5 : ℚ)), (2, 9), (2, 1), (4, 3)] 1 = .ok 7 := by decide +kernel
example : interpolatedKey [((0 : ℚ), (5 : ℚ)), (2, 9), (2, 1), (4, 3)] 2 = .ok 1 := by decide +kernel
example : KeySorted [((0 : ℚ), (5 : ℚ)), (2, 9), (2, 1), (4, 3)] := by unfold KeySorted; decide +kernel

section Floor

variable [FloorRing K]

/-- The form by index agrees with the form by key on the keys 0, 1, 2, …, for indices that can be computed. -/
theorem C67_index (l : List K) (key : K) (hlen : l.length < 2 ^ 64) (hkey : ⌊key⌋ < 2 ^ 64 - 1) :
    interpolatedIndex l key = interpolatedKey (l.mapIdx fun i v => ((i : K), v)) key := by
  by_cases hl : l = []
  · subst hl; rfl
  have hpos : 0 < l.length := List.length_pos_iff.2 hl
  set m := l.mapIdx fun i v => ((i : K), v) with hm
  have hml : m.length = l.length := by simp [hm]
  have hget : ∀ i (hi : i < m.length), m[i] = ((i : K), l[i]'(by omega)) := by intro i hi; simp [hm]
  have hs : KeySorted m := by
    apply List.pairwise_iff_getElem.2
    intro i j hi hj hij
    rw [hget i hi, hget j hj]
    exact Nat.cast_le.2 hij.le
  unfold interpolatedIndex
  rw [if_neg (by simpa using hl)]
  by_cases h0 : key < 0
  · rw [if_pos h0, List.getElem?_eq_getElem hpos, C67_before m key (by omega) (by rw [hget]; simpa using h0) hs, hget]
  · rw [if_neg h0, if_neg (by omega)]
    have hf0 : 0 ≤ ⌊key⌋ := Int.floor_nonneg.2 (not_lt.1 h0)
    have hmod : (⌊key⌋.toNat + 1) % 2 ^ 64 = ⌊key⌋.toNat + 1 := Nat.mod_eq_of_lt (by omega)
    simp only [hmod]
    have hcast : ((⌊key⌋.toNat : Nat) : K) = (⌊key⌋ : K) := by rw [← Int.cast_natCast, Int.toNat_of_nonneg hf0]
    have hfl : ((⌊key⌋.toNat : Nat) : K) ≤ key := by rw [hcast]; exact Int.floor_le key
    have hfu : key < ((⌊key⌋.toNat + 1 : Nat) : K) := by push_cast; rw [hcast]; exact Int.lt_floor_add_one key
    by_cases hge : ⌊key⌋.toNat + 1 ≥ l.length
    · rw [if_pos hge, List.getElem?_eq_getElem (by omega)]
      rw [C67_after m key (by omega) ?_ hs]
      · rw [hget]; simp only [hml]
      · rw [hget]
        refine le_trans ?_ hfl
        exact Nat.cast_le.2 (by omega)
    · rw [if_neg hge, List.getElem?_eq_getElem (by omega), List.getElem?_eq_getElem (by omega)]
      rw [C67_between m key ⌊key⌋.toNat (by omega) (by rw [hget]; exact hfl) (by rw [hget]; exact hfu) hs]
      simp only [hget]
      congr 1
      push_cast
      ring

/-- Further out the conversion of the index is undefined, from 2^64 on. -/
theorem C67_index_far_refuted (l : List K) (key : K) (hl : l ≠ []) (hk : 2 ^ 64 ≤ key) : interpolatedIndex l key = .ub := by
  have h0 : ¬ key < 0 := not_lt.2 (le_trans (by positivity) hk)
  have hf : ⌊key⌋ ≥ 2 ^ 64 := by
    rw [ge_iff_le, Int.le_floor]; exact_mod_cast hk
  rw [interpolatedIndex, if_neg (by simpa using hl), if_neg h0, if_pos hf]

example : interpolatedIndex [(1 : ℚ), 2] (2 ^ 64) = .ub := by decide +kernel

example : interpolatedIndex [(1 : ℚ), 2, 6] (5/2) = .ok 6 ∧ interpolatedIndex [(1 : ℚ), 2, 6] (3/2) = .ok 4 := by decide +kernel

/-! ## C71 -/

/-- The case of an index that is given. -/
theorem Rplf.eval_eq (a b : K) (n : Nat) (fn : K → K) (x : K) (hn : 0 < n) :
    let step := (b - a) / (n : K)
    let idx := (x - a) / step
    let lb := (clampInt ⌊idx⌋ 0 ((n : Int) - 1)).toNat
    ¬ (⌊idx⌋ < -2 ^ 31 ∨ ⌊idx⌋ ≥ 2 ^ 31) →
    (Rplf.new a b n fn).eval x = .ok ((1 - (idx - (lb : K))) * fn (a + (lb : K) * step) + (idx - (lb : K)) * fn (a + ((lb + 1 : Nat) : K) * step)) ∧ lb < n := by
  intro step idx lb h
  have hc : 0 ≤ clampInt ⌊idx⌋ 0 ((n : Int) - 1) ∧ clampInt ⌊idx⌋ 0 ((n : Int) - 1) ≤ (n : Int) - 1 := by
    unfold clampInt
    split
    · omega
    · split <;> omega
  have hcast : ((clampInt ⌊idx⌋ 0 ((n : Int) - 1) : Int) : K) = (lb : K) := by
    rw [← Int.cast_natCast lb, show ((lb : Nat) : Int) = clampInt ⌊idx⌋ 0 ((n : Int) - 1) from Int.toNat_of_nonneg hc.1]
  have hlt : lb < n := by omega
  refine ⟨?_, hlt⟩
  unfold Rplf.eval Rplf.new
  simp only
  rw [if_neg h, show ((n : Int) + 1 - 2) = (n : Int) - 1 by ring, if_neg (by exact not_lt.2 hc.1)]
  have e1 : (clampInt ⌊idx⌋ 0 ((n : Int) - 1) + 1).toNat = lb + 1 := by omega
  show (match (List.map (fun i : Nat => fn (a + (i : K) * step)) (List.range (n + 1)))[lb]?,
        (List.map (fun i : Nat => fn (a + (i : K) * step)) (List.range (n + 1)))[(clampInt ⌊idx⌋ 0 ((n : Int) - 1) + 1).toNat]? with
      | some a, some b => Res.ok ((1 - (idx - ((clampInt ⌊idx⌋ 0 ((n : Int) - 1) : Int) : K))) * a + (idx - ((clampInt ⌊idx⌋ 0 ((n : Int) - 1) : Int) : K)) * b)
      | _, _ => Res.ub) = _
  rw [e1, hcast, List.getElem?_eq_getElem (by simp; omega), List.getElem?_eq_getElem (by simp; omega)]
  simp

/-- Inside an interval, both ends included, the value is the linear interpolation of the ends. -/
theorem C71_interval (a b : K) (n : Nat) (fn : K → K) (hab : a < b) (hn : 0 < n) (hn' : n < 2 ^ 31) (x : K) (i : Nat) (hi : i < n)
    (h1 : a + (i : K) * ((b - a) / n) ≤ x) (h2 : x ≤ a + ((i + 1 : Nat) : K) * ((b - a) / n)) :
    (Rplf.new a b n fn).eval x = .ok (fn (a + (i : K) * ((b - a) / n)) + (x - (a + (i : K) * ((b - a) / n))) / ((b - a) / n) *
      (fn (a + ((i + 1 : Nat) : K) * ((b - a) / n)) - fn (a + (i : K) * ((b - a) / n)))) := by
  have hnK : (0 : K) < (n : K) := Nat.cast_pos.2 hn
  have hst : 0 < (b - a) / (n : K) := div_pos (by linarith) hnK
  set step := (b - a) / (n : K) with hstep
  have g1 : (i : K) ≤ (x - a) / step := by rw [le_div_iff₀ hst]; linarith
  have g2 : (x - a) / step ≤ ((i + 1 : Nat) : K) := by rw [div_le_iff₀ hst]; linarith
  have f1 : (i : Int) ≤ ⌊(x - a) / step⌋ := Int.le_floor.2 (by exact_mod_cast g1)
  have f2 : ⌊(x - a) / step⌋ ≤ (i : Int) + 1 := by
    have : (⌊(x - a) / step⌋ : K) ≤ (((i : Int) + 1 : Int) : K) := (Int.floor_le _).trans (by push_cast; push_cast at g2; exact g2)
    exact_mod_cast this
  obtain ⟨he, hlb⟩ := Rplf.eval_eq a b n fn x hn (by rw [← hstep]; omega)
  rw [← hstep] at he hlb
  rw [he]
  congr 1
  set lb := (clampInt ⌊(x - a) / step⌋ 0 ((n : Int) - 1)).toNat with hlbd
  have hcases : lb = i ∨ (lb = i + 1 ∧ (x - a) / step = ((i + 1 : Nat) : K)) := by
    rcases Int.lt_or_le ⌊(x - a) / step⌋ ((i : Int) + 1) with h | h
    · left
      have : ⌊(x - a) / step⌋ = (i : Int) := by omega
      rw [hlbd, this]
      unfold clampInt
      rw [if_neg (by omega), if_neg (by omega)]
      simp
    · have hf : ⌊(x - a) / step⌋ = (i : Int) + 1 := by omega
      by_cases hlast : i + 1 < n
      · right
        constructor
        · rw [hlbd, hf]
          unfold clampInt
          rw [if_neg (by omega), if_neg (by omega)]
          omega
        · apply le_antisymm g2
          have := Int.floor_le ((x - a) / step)
          rw [hf] at this
          push_cast at this ⊢
          exact this
      · left
        rw [hlbd, hf]
        unfold clampInt
        rw [if_neg (by omega), if_pos (by omega)]
        omega
  have hx : x = a + (x - a) / step * step := by rw [div_mul_cancel₀ _ hst.ne']; ring
  rcases hcases with h | ⟨h, hidx⟩
  · rw [h]
    have : (x - (a + (i : K) * step)) / step = (x - a) / step - (i : K) := by field_simp; ring
    rw [this]
    ring
  · have : (x - (a + (i : K) * step)) / step = (x - a) / step - (i : K) := by field_simp; ring
    rw [this, hidx, h]
    push_cast
    ring

/-- At the grid points the function itself is returned. -/
theorem C71_grid (a b : K) (n : Nat) (fn : K → K) (hab : a < b) (hn : 0 < n) (hn' : n < 2 ^ 31) (i : Nat) (hi : i ≤ n) :
    (Rplf.new a b n fn).eval (a + (i : K) * ((b - a) / n)) = .ok (fn (a + (i : K) * ((b - a) / n))) := by
  have hnK : (0 : K) < (n : K) := Nat.cast_pos.2 hn
  have hst : 0 < (b - a) / (n : K) := div_pos (by linarith) hnK
  rcases Nat.lt_or_ge i n with h | h
  · rw [C71_interval a b n fn hab hn hn' _ i h le_rfl (by push_cast; linarith)]
    congr 1
    simp
  · obtain ⟨j, rfl⟩ : ∃ j, i = j + 1 := ⟨i - 1, by omega⟩
    rw [C71_interval a b n fn hab hn hn' _ j (by omega) (by push_cast; linarith) le_rfl]
    congr 1
    have : (a + ((j + 1 : Nat) : K) * ((b - a) / n) - (a + (j : K) * ((b - a) / n))) / ((b - a) / n) = 1 := by
      rw [div_eq_one_iff_eq hst.ne']
      push_cast
      ring
    rw [this]
    ring

/-- Affine functions are reproduced wherever the index can be computed, also outside the grid. -/
theorem C71_affine (a b p q : K) (n : Nat) (hab : a < b) (hn : 0 < n) (x : K)
    (hx : -2 ^ 31 ≤ ⌊(x - a) / ((b - a) / n)⌋) (hx' : ⌊(x - a) / ((b - a) / n)⌋ < 2 ^ 31) :
    (Rplf.new a b n fun t => p + q * t).eval x = .ok (p + q * x) := by
  have hnK : (0 : K) < (n : K) := Nat.cast_pos.2 hn
  have hst : 0 < (b - a) / (n : K) := div_pos (by linarith) hnK
  obtain ⟨he, _⟩ := Rplf.eval_eq a b n (fun t => p + q * t) x hn (by omega)
  rw [he]
  congr 1
  set step := (b - a) / (n : K)
  have hx : x = a + (x - a) / step * step := by rw [div_mul_cancel₀ _ hst.ne']; ring
  push_cast
  conv_rhs => rw [hx]
  ring

/-- The table is only accessed in range, whenever the index can be computed. -/
theorem C71_in_range (a b : K) (n : Nat) (fn : K → K) (hn : 0 < n) (x : K) :
    (Rplf.new a b n fn).eval x ≠ .ub ↔ -2 ^ 31 ≤ ⌊(x - a) / ((b - a) / n)⌋ ∧ ⌊(x - a) / ((b - a) / n)⌋ < 2 ^ 31 := by
  constructor
  · intro h
    by_contra hcon
    apply h
    unfold Rplf.eval Rplf.new
    simp only
    rw [if_pos (by omega)]
  · rintro ⟨h1, h2⟩
    obtain ⟨he, _⟩ := Rplf.eval_eq a b n fn x hn (by omega)
    rw [he]
    simp

/-- So not for every `x`. -/
theorem C71_far_refuted : (Rplf.new (0 : ℚ) 1 1 fun t => t).eval (2 ^ 31) = .ub := by decide +kernel

example : (Rplf.new (0 : ℚ) 2 4 fun t => t * t).eval (5/4) = .ok (13/8) ∧ (Rplf.new (0 : ℚ) 2 4 fun t => t * t).eval 2 = .ok 4 := by
  decide +kernel

end Floor

end Flut
