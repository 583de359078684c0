import Verif.Model.IntStat
import Mathlib.Tactic.Linarith

/-!
# C173: averages, medians and means of numbers of type `int`
-/

namespace Flut

namespace IntStat

/-- A value of type `int`. -/
def InInt (x : Int) : Prop := -2 ^ 31 ≤ x ∧ x < 2 ^ 31

/-- The numbers can be added one after the other. -/
def Summable (l : List Int) : Prop := ∀ k ≤ l.length, InInt (l.take k).sum

/-- `q` is `s / n` without the digits behind the point. -/
def CutOff (s : Int) (n : Nat) (q : Int) : Prop :=
  (0 ≤ s → q * n ≤ s ∧ s < (q + 1) * n) ∧ (s ≤ 0 → s ≤ q * n ∧ (q - 1) * n < s)

theorem chk_ok {x : Int} (h : InInt x) : chk x = .ok x := if_pos h

theorem sumFrom_ok (l : List Int) (a : Int) (h : ∀ k ≤ l.length, InInt (a + (l.take k).sum)) : sumFrom a l = .ok (a + l.sum) := by
  induction l generalizing a with
  | nil => simp [sumFrom]
  | cons x r ih =>
    have h1 := h 1 (by simp)
    simp only [List.take_succ_cons, List.take_zero, List.sum_cons, List.sum_nil, Int.add_zero] at h1
    simp only [sumFrom, chk_ok h1, Res.bind_ok]
    rw [ih]
    · simp [Int.add_assoc]
    · intro k hk
      have := h (k + 1) (by simpa using hk)
      simpa [Int.add_assoc] using this

theorem summable_ok {l : List Int} (h : Summable l) : sumFrom 0 l = .ok l.sum := by
  have := sumFrom_ok l 0 (by simpa [Summable] using h)
  simpa using this

theorem Summable.total {l : List Int} (h : Summable l) : InInt l.sum := by simpa using h l.length le_rfl

theorem cutOff_tdiv (s : Int) (n : Nat) (hn : 0 < n) : CutOff s n (Int.tdiv s n) := by
  have hn' : (0 : Int) < n := by exact_mod_cast hn
  constructor
  · intro hs
    rw [Int.tdiv_eq_ediv_of_nonneg hs]
    exact ⟨Int.ediv_mul_le s hn'.ne', Int.lt_ediv_add_one_mul_self s hn'⟩
  · intro hs
    obtain ⟨t, rfl⟩ : ∃ t, s = -t := ⟨-s, by omega⟩
    rw [Int.neg_tdiv, Int.tdiv_eq_ediv_of_nonneg (by omega)]
    have h1 := Int.ediv_mul_le t hn'.ne'
    have h2 := Int.lt_ediv_add_one_mul_self t hn'
    constructor <;> nlinarith

theorem cutOff_range {s : Int} {n : Nat} {q : Int} (hn : 0 < n) (hs : InInt s) (h : CutOff s n q) : InInt q := by
  have hn' : (1 : Int) ≤ n := by exact_mod_cast hn
  obtain ⟨h1, h2⟩ := hs
  rcases le_total 0 s with h0 | h0
  · obtain ⟨ha, hb⟩ := h.1 h0
    have hq : 0 ≤ q := by
      by_contra hq
      nlinarith
    exact ⟨by omega, by nlinarith⟩
  · obtain ⟨ha, hb⟩ := h.2 h0
    have hq : q ≤ 0 := by
      by_contra hq
      nlinarith
    exact ⟨by nlinarith, by omega⟩

/-- C173: the average of whole numbers that can be added is their mean without the digits behind the point. -/
theorem C173_average (l : List Int) (hl : l ≠ []) (hn : l.length < 2 ^ 31) (h : Summable l) :
    ∃ q, average l = .ok q ∧ CutOff l.sum l.length q := by
  have hpos : 0 < l.length := List.length_pos_iff.mpr hl
  have hc := cutOff_tdiv l.sum l.length hpos
  have hsum : InInt l.sum := h.total
  refine ⟨Int.tdiv l.sum l.length, ?_, hc⟩
  have hlen : InInt (l.length : Int) := ⟨by omega, by exact_mod_cast hn⟩
  simp only [average, summable_ok h, Res.bind_ok, chk_ok hlen]
  rw [if_neg (by omega), chk_ok (cutOff_range hpos hsum hc)]

example : average [-3, 4, -6] = .ok (-1) := by decide

/-- C173: the median is the number in the middle of the sorted numbers, or the mean of the two in the middle without the digits behind
the point, if these two can be added. -/
theorem C173_median (l v : List Int) (hp : v.Perm l) (hv : v.Pairwise (· ≤ ·)) :
    (∀ x, l.length % 2 = 1 → v[l.length / 2]? = some x → median l = .ok x) ∧
    (∀ x y, l.length % 2 = 0 → v[l.length / 2]? = some x → v[l.length / 2 - 1]? = some y → InInt (x + y) →
      ∃ q, median l = .ok q ∧ CutOff (x + y) 2 q) ∧
    (l = [] → median l = .throws .assertion) := by
  have e : l.insertionSort (· ≤ ·) = v :=
    ((List.perm_insertionSort (· ≤ ·) l).trans hp.symm).eq_of_pairwise' (List.pairwise_insertionSort (· ≤ ·) l) hv
  refine ⟨fun x ho hx => ?_, fun x y he hx hy hr => ?_, fun h => by subst h; rfl⟩
  · unfold median
    rw [if_neg (by omega), e]
    simp only [ho, if_true, hx]
  · have hl : l.length ≠ 0 := by
      intro h0
      have : v = [] := List.length_eq_zero_iff.mp (hp.length_eq.trans h0)
      simp [this] at hx
    refine ⟨Int.tdiv (x + y) 2, ?_, cutOff_tdiv (x + y) 2 (by decide)⟩
    unfold median
    rw [if_neg hl, e]
    simp only [he, hx, hy, chk_ok hr, Res.bind_ok]
    rfl

example : median [5, -4, 1, -2] = .ok 0 ∧ median [5, -4, 1] = .ok 1 := by decide

/-- C173: the means of channels whose sums are not negative are cut off likewise. -/
theorem C173_means_partial (channels : List (List Int)) (n : Nat) (hn : 0 < n)
    (h : ∀ c ∈ channels, c.length = n ∧ Summable c ∧ 0 ≤ c.sum) :
    ∃ ms, channelMeans channels = .ok ms ∧ List.Forall₂ (fun c m => CutOff c.sum n m) channels ms := by
  induction channels with
  | nil => exact ⟨[], rfl, .nil⟩
  | cons c r ih =>
    obtain ⟨ms, hm, hf⟩ := ih fun x hx => h x (List.mem_cons_of_mem _ hx)
    obtain ⟨hlen, hs, h0⟩ := h c List.mem_cons_self
    have hsum : InInt c.sum := hs.total
    have hc := cutOff_tdiv c.sum n hn
    have hr := cutOff_range hn hsum hc
    refine ⟨Int.tdiv c.sum n :: ms, ?_, .cons hc hf⟩
    have hd : divideBySize c.sum c.length = .ok (Int.tdiv c.sum n) := by
      rw [hlen]
      unfold divideBySize
      rw [if_neg (by omega), Int.emod_eq_of_lt h0 (by have := hsum.2; omega), ← Int.tdiv_eq_ediv_of_nonneg h0]
      obtain ⟨h1, h2⟩ := hr
      unfold toInt
      rw [Int.emod_eq_of_lt (by omega) (by omega)]
      congr 1
      omega
    simp only [channelMeans, summable_ok hs, Res.bind_ok, hd, hm]

example : channelMeans [[1, 2, 4], [5, 5, 6]] = .ok [2, 5] := by decide

/-- C173: with a number of frames that is a power of two, the means of all channels are rounded down, whatever the signs of the sums. -/
theorem C173_means_power (channels : List (List Int)) (k : Nat) (hk : k ≤ 32)
    (h : ∀ c ∈ channels, c.length = 2 ^ k ∧ Summable c) :
    ∃ ms, channelMeans channels = .ok ms ∧ List.Forall₂ (fun c m => m * 2 ^ k ≤ c.sum ∧ c.sum < (m + 1) * 2 ^ k) channels ms := by
  induction channels with
  | nil => exact ⟨[], rfl, .nil⟩
  | cons c r ih =>
    obtain ⟨ms, hm, hf⟩ := ih fun x hx => h x (List.mem_cons_of_mem _ hx)
    obtain ⟨hlen, hs⟩ := h c List.mem_cons_self
    obtain ⟨h1, h2⟩ := hs.total
    generalize hsum : c.sum = s at *
    have hpos : (0 : Int) < 2 ^ k := by positivity
    have hone : (1 : Int) ≤ 2 ^ k := hpos
    have ha := Int.ediv_mul_le s hpos.ne'
    have hb := Int.lt_ediv_add_one_mul_self s hpos
    refine ⟨s / 2 ^ k :: ms, ?_, .cons (by rw [hsum]; exact ⟨ha, hb⟩) hf⟩
    have hq1 : -2 ^ 31 ≤ s / 2 ^ k := by
      rw [Int.le_ediv_iff_mul_le hpos]
      nlinarith
    have hq2 : s / 2 ^ k < 2 ^ 31 := by
      rw [Int.ediv_lt_iff_lt_mul hpos]
      nlinarith
    have hd : divideBySize s c.length = .ok (s / 2 ^ k) := by
      have hne : c.length ≠ 0 := by rw [hlen]; positivity
      unfold divideBySize
      rw [if_neg hne, hlen, Nat.cast_pow, Nat.cast_ofNat]
      congr 1
      rcases Int.lt_or_le s 0 with h0 | h0
      · have e1 : s % 2 ^ 64 = s + 2 ^ (64 - k) * 2 ^ k := by
          rw [← pow_add, Nat.sub_add_cancel (by omega), ← Int.add_emod_right, Int.emod_eq_of_lt (by omega) (by omega)]
        rw [e1, Int.add_mul_ediv_right _ _ hpos.ne']
        have e2 : (2 : Int) ^ (64 - k) = 2 ^ 32 * 2 ^ (32 - k) := by rw [← pow_add]; congr 1; omega
        unfold toInt
        rw [e2, Int.add_right_comm, Int.add_mul_emod_self_left, Int.emod_eq_of_lt (by omega) (by omega)]
        omega
      · rw [Int.emod_eq_of_lt h0 (by omega)]
        unfold toInt
        rw [Int.emod_eq_of_lt (by omega) (by omega)]
        omega
    simp only [channelMeans, hsum, summable_ok hs, Res.bind_ok, hd, hm]

example : channelMeans [[-1, -1], [-1, -2], [3, 2]] = .ok [-1, -2, 2] := by decide

theorem divideBySize_ok {s : Int} {n : Nat} (hn : 0 < n) (hs : InInt s) (h0 : 0 ≤ s) : ∃ q, divideBySize s n = .ok q ∧ CutOff s n q := by
  have hc := cutOff_tdiv s n hn
  obtain ⟨h1, h2⟩ := cutOff_range hn hs hc
  refine ⟨Int.tdiv s n, ?_, hc⟩
  unfold divideBySize
  rw [if_neg (by omega), Int.emod_eq_of_lt h0 (by have := hs.2; omega), ← Int.tdiv_eq_ediv_of_nonneg h0]
  unfold toInt
  rw [Int.emod_eq_of_lt (by omega) (by omega)]
  congr 1
  omega

theorem productsFrom_ok (ma mb : Int) (ps : List (Int × Int)) (v : Int)
    (hp : ∀ p ∈ ps, InInt (p.1 - ma) ∧ InInt (p.2 - mb) ∧ InInt ((p.1 - ma) * (p.2 - mb)))
    (hs : ∀ k ≤ ps.length, InInt (v + ((ps.take k).map fun p => (p.1 - ma) * (p.2 - mb)).sum)) :
    productsFrom ma mb v ps = .ok (v + (ps.map fun p => (p.1 - ma) * (p.2 - mb)).sum) := by
  induction ps generalizing v with
  | nil => simp [productsFrom]
  | cons p r ih =>
    obtain ⟨a, b⟩ := p
    obtain ⟨h1, h2, h3⟩ := hp (a, b) List.mem_cons_self
    have h4 := hs 1 (by simp)
    simp only [List.take_succ_cons, List.take_zero, List.map_cons, List.map_nil, List.sum_cons, List.sum_nil, Int.add_zero] at h4
    simp only [productsFrom, chk_ok h1, chk_ok h2, chk_ok h3, chk_ok h4, Res.bind_ok]
    rw [ih]
    · simp [Int.add_assoc]
    · exact fun q hq => hp q (List.mem_cons_of_mem _ hq)
    · intro k hk
      have := hs (k + 1) (by simpa using hk)
      simpa [Int.add_assoc] using this

/-- C173: the covariance of two channels is the sum of the products of the differences from the means that were computed, divided by the
number of frames and cut off, if it and the sums of the channels are not negative and nothing on the way is out of range. -/
theorem C173_covariance_partial (ps : List (Int × Int)) (hne : ps ≠ [])
    (h1 : Summable (ps.map Prod.fst)) (h2 : Summable (ps.map Prod.snd)) (h3 : 0 ≤ (ps.map Prod.fst).sum) (h4 : 0 ≤ (ps.map Prod.snd).sum) :
    ∃ ma mb, CutOff (ps.map Prod.fst).sum ps.length ma ∧ CutOff (ps.map Prod.snd).sum ps.length mb ∧
      ((∀ p ∈ ps, InInt (p.1 - ma) ∧ InInt (p.2 - mb) ∧ InInt ((p.1 - ma) * (p.2 - mb))) →
        Summable (ps.map fun p => (p.1 - ma) * (p.2 - mb)) → 0 ≤ (ps.map fun p => (p.1 - ma) * (p.2 - mb)).sum →
        ∃ q, covariance ps = .ok q ∧ CutOff (ps.map fun p => (p.1 - ma) * (p.2 - mb)).sum ps.length q) := by
  have hn : 0 < ps.length := List.length_pos_iff.mpr hne
  have s1 : InInt (ps.map Prod.fst).sum := h1.total
  have s2 : InInt (ps.map Prod.snd).sum := h2.total
  obtain ⟨ma, ea, ca⟩ := divideBySize_ok hn s1 h3
  obtain ⟨mb, eb, cb⟩ := divideBySize_ok hn s2 h4
  refine ⟨ma, mb, ca, cb, fun hp hs h0 => ?_⟩
  have s3 : InInt (ps.map fun p => (p.1 - ma) * (p.2 - mb)).sum := hs.total
  obtain ⟨q, eq, cq⟩ := divideBySize_ok hn s3 h0
  refine ⟨q, ?_, cq⟩
  have hv := productsFrom_ok ma mb ps 0 hp (fun k hk => by
    have := hs k (by simpa using hk)
    rw [← List.map_take] at this
    simpa using this)
  simp only [Int.zero_add] at hv
  simp only [covariance, channelMeans, summable_ok h1, summable_ok h2, List.length_map, ea, eb, Res.bind_ok, hv, eq]

example : covariance [(0, 0), (2, 4), (4, 8)] = .ok 5 := by decide

/-- C173 is false of covariances that are negative: that of 0, 1, 2 and 2, 1, 0 is computed as 1431655764. -/
theorem C173_covariance_refuted : covariance [(0, 2), (1, 1), (2, 0)] = .ok 1431655764 := by decide

/-- C173 is false of channels with negative sums: three frames with -1 have the mean 1431655764. -/
theorem C173_means_refuted : channelMeans [[-1, -1, -1]] = .ok [1431655764] := by decide

/-- C173 is false of large numbers: their average and their median are undefined although they are in range. -/
theorem C173_overflow_refuted : average [2 ^ 31 - 1, 1] = .ub ∧ median [2 ^ 31 - 1, 2 ^ 31 - 1] = .ub := by decide

end IntStat

end Flut
