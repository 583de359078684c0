import Verif.Props.Numeric
import Mathlib.Tactic.Positivity

/-!
# Delayers (C72)
-/

namespace Flut

variable {K : Type} [Field K] [LinearOrder K]

/-- A delayer never outputs its initial value at the start, but zero: the constructor only sets the first of its elements. -/
theorem C72_initial_refuted (N : Nat) (hN : 2 ≤ N) (delay init : K) :
    (Delayer.new N delay init).delayedValue N = 0 ∧ (SmoothDelayer.new N delay init).delayedValue N = 0 := by
  constructor
  · unfold Delayer.delayedValue Delayer.new
    simp
    omega
  · unfold SmoothDelayer.delayedValue SmoothDelayer.new
    simp
    omega

variable [IsStrictOrderedRing K]

/-! ### Values stored -/

namespace Delayer

/-- The number of samples stored. -/
def stores (N : Nat) (d : Delayer K) : List (K × K) → Nat
  | [] => 0
  | s :: l => (if d.time + s.2 + 0.5 * s.2 > d.window then 1 else 0) + stores N (d.addSample N s.1 s.2) l

omit [IsStrictOrderedRing K] in
theorem addSample_window (N : Nat) (d : Delayer K) (v dt : K) : (d.addSample N v dt).window = d.window := by
  unfold addSample
  dsimp only
  split <;> rfl

/-- The next `k` slots to be written, the others hold `c` already. -/
def Filled (N : Nat) (d : Delayer K) (c : K) (k : Nat) : Prop :=
  d.idx < N ∧ ∀ j < k, d.data ((d.idx + (N - j)) % N) = c

omit [IsStrictOrderedRing K] in
theorem filled_step (N : Nat) (d : Delayer K) (c dt : K) (k : Nat) (hk : k ≤ N) (h : d.Filled N c k) :
    (d.addSample N c dt).Filled N c (min N (k + (if d.time + dt + 0.5 * dt > d.window then 1 else 0))) := by
  obtain ⟨h1, h2⟩ := h
  unfold addSample
  dsimp only
  split
  · refine ⟨Nat.mod_lt _ (by omega), ?_⟩
    intro j hj
    dsimp only
    have hj' : j < N := by omega
    have hmod : ((d.idx + 1) % N + (N - j)) % N = (d.idx + 1 + (N - j)) % N := by rw [Nat.add_mod, Nat.mod_mod, ← Nat.add_mod]
    rw [hmod]
    split
    · rfl
    · rename_i hne
      cases j with
      | zero => simp at hne
      | succ j =>
        have : d.idx + 1 + (N - (j + 1)) = d.idx + (N - j) := by omega
        rw [this]
        exact h2 j (by omega)
  · exact ⟨h1, fun j hj => h2 j (by omega)⟩

omit [IsStrictOrderedRing K] in
theorem filled_all (N : Nat) (c : K) (l : List (K × K)) (hl : ∀ s ∈ l, s.1 = c) (d : Delayer K) (k : Nat) (hk : k ≤ N) (h : d.Filled N c k) :
    (d.addAll N l).Filled N c (min N (k + stores N d l)) := by
  induction l generalizing d k with
  | nil =>
    simp only [addAll, List.foldl_nil, stores, Nat.add_zero]
    rw [Nat.min_eq_right hk]
    exact h
  | cons s l ih =>
    have hs : s.1 = c := hl s (List.mem_cons_self ..)
    have e : d.addAll N (s :: l) = (d.addSample N s.1 s.2).addAll N l := rfl
    rw [e, stores, hs]
    have h1 := filled_step N d c s.2 k hk h
    have h2 := ih (fun s hs => hl s (List.mem_cons_of_mem _ hs)) _ _ (Nat.min_le_left ..) h1
    refine ⟨h2.1, fun j hj => h2.2 j ?_⟩
    omega

omit [IsStrictOrderedRing K] in
theorem filled_value (N : Nat) (d : Delayer K) (c : K) (hN : 0 < N) (h : d.Filled N c N) : d.delayedValue N = c := by
  have hall : ∀ j < N, d.data j = c := by
    intro j hj
    have h1 := h.1
    have := h.2 ((d.idx + (N - j)) % N) (Nat.mod_lt _ hN)
    have e : (d.idx + (N - (d.idx + (N - j)) % N)) % N = j := by
      rcases Nat.lt_or_ge (d.idx) j with hlt | hge
      · rw [Nat.mod_eq_of_lt (by omega : d.idx + (N - j) < N)]
        rw [show d.idx + (N - (d.idx + (N - j))) = j by omega, Nat.mod_eq_of_lt hj]
      · rw [show d.idx + (N - j) = (d.idx - j) + N by omega, Nat.add_mod_right, Nat.mod_eq_of_lt (by omega : d.idx - j < N)]
        rw [show d.idx + (N - (d.idx - j)) = j + N by omega, Nat.add_mod_right, Nat.mod_eq_of_lt hj]
    rwa [e] at this
  unfold delayedValue
  dsimp only
  rw [hall _ (Nat.mod_lt _ hN), hall _ (Nat.mod_lt _ hN)]
  ring

/-- The time not yet used, and the number of samples stored. -/
theorem stores_time (N : Nat) (l : List (K × K)) (d : Delayer K) (ht : d.time ≤ d.window) (hl : ∀ s ∈ l, 0 ≤ s.2 ∧ s.2 ≤ d.window) :
    (d.addAll N l).time ≤ d.window ∧ (d.addAll N l).time = d.time + (l.map Prod.snd).sum - (stores N d l : K) * d.window := by
  induction l generalizing d with
  | nil => simp [addAll, stores, ht]
  | cons s l ih =>
    obtain ⟨h1, h2⟩ := hl s (List.mem_cons_self ..)
    have e : d.addAll N (s :: l) = (d.addSample N s.1 s.2).addAll N l := rfl
    have hw := addSample_window N d s.1 s.2
    have ht' : (d.addSample N s.1 s.2).time ≤ (d.addSample N s.1 s.2).window := by
      rw [hw]
      unfold addSample
      dsimp only
      split
      · dsimp only; linarith
      · rename_i hno
        dsimp only
        norm_num at hno
        linarith
    obtain ⟨i1, i2⟩ := ih (d.addSample N s.1 s.2) ht' (by rw [hw]; exact fun s hs => hl s (List.mem_cons_of_mem _ hs))
    rw [e, stores]
    rw [hw] at i1 i2
    refine ⟨i1, ?_⟩
    rw [i2, List.map_cons, List.sum_cons]
    unfold addSample
    dsimp only
    split
    · dsimp only; push_cast; ring
    · dsimp only; push_cast; ring

end Delayer

/-- A constant input gives this constant, after the time of `N + 1` windows, for steps not longer than a window. -/
theorem C72_constant (N : Nat) (hN : 2 ≤ N) (delay init c : K) (hd : 0 < delay) (l : List (K × K)) (hc : ∀ s ∈ l, s.1 = c)
    (hdt : ∀ s ∈ l, 0 ≤ s.2 ∧ s.2 ≤ delay / ((N : K) - 1)) (htot : ((N : K) + 1) * (delay / ((N : K) - 1)) ≤ (l.map Prod.snd).sum) :
    ((Delayer.new N delay init).addAll N l).delayedValue N = c := by
  have hNK : (0 : K) < (N : K) - 1 := by
    have : (2 : K) ≤ (N : K) := by exact_mod_cast hN
    linarith
  have hw : 0 < delay / ((N : K) - 1) := div_pos hd hNK
  obtain ⟨h1, h2⟩ := Delayer.stores_time N l (Delayer.new N delay init) (by simpa [Delayer.new] using hw.le) hdt
  have hst : N ≤ Delayer.stores N (Delayer.new N delay init) l := by
    have e : (Delayer.new N delay init).window = delay / ((N : K) - 1) := rfl
    have e' : (Delayer.new N delay init).time = 0 := rfl
    rw [e] at h1 h2
    rw [e'] at h2
    have : (N : K) * (delay / ((N : K) - 1)) ≤ (Delayer.stores N (Delayer.new N delay init) l : K) * (delay / ((N : K) - 1)) := by nlinarith
    have := le_of_mul_le_mul_right this hw
    exact_mod_cast this
  have hf := Delayer.filled_all N c l hc (Delayer.new N delay init) 0 (by omega)
    ⟨by show 0 < N; omega, by intro j hj; omega⟩
  rw [Nat.min_eq_left (by omega)] at hf
  exact Delayer.filled_value N _ c (by omega) hf

/-- Elements and weights: as long as the clock stays within the window, the output lies between any bounds of the samples, of the initial
value and of zero. -/
theorem C72_convex_partial (N : Nat) (delay init lo hi : K) (l : List (K × K)) (h0 : lo ≤ 0 ∧ 0 ≤ hi) (hi0 : lo ≤ init ∧ init ≤ hi)
    (hs : ∀ s ∈ l, lo ≤ s.1 ∧ s.1 ≤ hi) (hw : 0 < delay / ((N : K) - 1))
    (ht : 0 ≤ ((Delayer.new N delay init).addAll N l).time) (ht' : ((Delayer.new N delay init).addAll N l).time ≤ delay / ((N : K) - 1)) :
    lo ≤ ((Delayer.new N delay init).addAll N l).delayedValue N ∧ ((Delayer.new N delay init).addAll N l).delayedValue N ≤ hi := by
  have hwin : ∀ (l : List (K × K)) (d : Delayer K), (d.addAll N l).window = d.window := by
    intro l
    induction l with
    | nil => intro d; rfl
    | cons s l ih =>
      intro d
      have := ih (d.addSample N s.1 s.2)
      rw [Delayer.addSample_window] at this
      exact this
  have hdata : ∀ (l : List (K × K)) (d : Delayer K), (∀ s ∈ l, lo ≤ s.1 ∧ s.1 ≤ hi) → (∀ i, lo ≤ d.data i ∧ d.data i ≤ hi) →
      ∀ i, lo ≤ (d.addAll N l).data i ∧ (d.addAll N l).data i ≤ hi := by
    intro l
    induction l with
    | nil => intro d _ h; exact h
    | cons s l ih =>
      intro d hs h
      apply ih (d.addSample N s.1 s.2) (fun s h => hs s (List.mem_cons_of_mem _ h))
      intro i
      unfold Delayer.addSample
      dsimp only
      split
      · dsimp only
        split
        · exact hs s (List.mem_cons_self ..)
        · exact h i
      · exact h i
  have hw' := hwin l (Delayer.new N delay init)
  have e : (Delayer.new N delay init).window = delay / ((N : K) - 1) := rfl
  rw [e] at hw'
  set d := (Delayer.new N delay init).addAll N l
  have hd : ∀ i, lo ≤ d.data i ∧ d.data i ≤ hi := hdata l _ hs (by
    intro i
    unfold Delayer.new
    dsimp only
    split
    · exact hi0
    · exact h0)
  unfold Delayer.delayedValue
  dsimp only
  rw [hw']
  obtain ⟨a1, a2⟩ := hd ((d.idx + N + 2) % N)
  obtain ⟨b1, b2⟩ := hd ((d.idx + N + 1) % N)
  set w := d.time / (delay / ((N : K) - 1))
  have w0 : 0 ≤ w := div_nonneg ht hw.le
  have w1 : w ≤ 1 := (div_le_one hw).2 ht'
  constructor <;> nlinarith

/-- But the clock can run out of the window, and the output beyond all samples. -/
theorem C72_convex_refuted : ((Delayer.new 2 (1 : ℚ) 0).addAll 2 [(1, 7/10)]).time < 0 ∧
    ((Delayer.new 2 (1 : ℚ) 0).addAll 2 [(1, 7/10)]).delayedValue 2 < 0 := by decide +kernel

/-! ### Exact delays -/

/-- What a slot holds after `q` windows. -/
def slotValue (N k : Nat) (s : Nat → K) (q j : Nat) : K := if j ≤ q then s (k * (q - (q - j) % N)) else 0

omit [LinearOrder K] [IsStrictOrderedRing K] in
theorem slotValue_succ (N k : Nat) (s : Nat → K) (q j : Nat) (hj : j < N) :
    slotValue N k s (q + 1) j = if j = (q + 1) % N then s (k * (q + 1)) else slotValue N k s q j := by
  unfold slotValue
  by_cases h : j = (q + 1) % N
  · rw [if_pos h]
    have hle : j ≤ q + 1 := by rw [h]; exact Nat.mod_le _ _
    rw [if_pos hle]
    have : (q + 1 - j) % N = 0 := by
      rw [h]
      exact Nat.sub_mod_eq_zero_of_mod_eq (Nat.mod_mod _ _).symm
    rw [this]
    rfl
  · rw [if_neg h]
    by_cases hle : j ≤ q
    · rw [if_pos hle, if_pos (by omega)]
      have hne : (q + 1 - j) % N ≠ 0 := by
        intro h0
        apply h
        have hdvd := Nat.dvd_of_mod_eq_zero h0
        obtain ⟨t, ht⟩ := hdvd
        have : q + 1 = j + N * t := by omega
        rw [this, Nat.add_mul_mod_self_left, Nat.mod_eq_of_lt hj]
      have e : (q + 1 - j) % N = (q - j) % N + 1 := by
        have h1 : q + 1 - j = (q - j) + 1 := by omega
        rw [h1, Nat.add_mod]
        rw [h1, Nat.add_mod] at hne
        rcases Nat.lt_or_ge 1 N with hN | hN
        · rw [Nat.mod_eq_of_lt hN] at hne ⊢
          have := Nat.mod_lt (q - j) (by omega : N > 0)
          rcases Nat.lt_or_ge ((q - j) % N + 1) N with h2 | h2
          · exact Nat.mod_eq_of_lt h2
          · exfalso
            apply hne
            rw [show (q - j) % N + 1 = N by omega, Nat.mod_self]
        · obtain rfl : N = 1 := by omega
          exact absurd (Nat.mod_one _) hne
      rw [e, Nat.add_sub_add_right]
    · rw [if_neg hle]
      have : j ≠ q + 1 := by
        intro h'
        apply h
        rw [← h', Nat.mod_eq_of_lt hj]
      rw [if_neg (by omega)]

theorem div_mod_succ (m k : Nat) (hk : 0 < k) :
    (m % k + 1 = k → (m + 1) / k = m / k + 1 ∧ (m + 1) % k = 0) ∧ (m % k + 1 ≠ k → (m + 1) / k = m / k ∧ (m + 1) % k = m % k + 1) := by
  have hm := Nat.div_add_mod m k
  have hlt := Nat.mod_lt m hk
  constructor
  · intro h
    have e : m + 1 = k * (m / k + 1) := by rw [Nat.mul_add]; omega
    constructor
    · conv_lhs => rw [e]
      exact Nat.mul_div_cancel_left _ hk
    · rw [e]; exact Nat.mul_mod_right _ _
  · intro h
    have e : m + 1 = (m % k + 1) + k * (m / k) := by omega
    constructor
    · conv_lhs => rw [e]
      rw [Nat.add_mul_div_left _ _ hk, Nat.div_eq_of_lt (by omega), Nat.zero_add]
    · conv_lhs => rw [e]
      rw [Nat.add_mul_mod_self_left, Nat.mod_eq_of_lt (by omega)]

/-- The state after `m` samples at steps of a `k`-th of the window. -/
theorem delayer_state (N k : Nat) (hN : 2 ≤ N) (hk : 0 < k) (delay : K) (hd : 0 < delay) (s : Nat → K) (m : Nat) :
    let d := (Delayer.new N delay (s 0)).addAll N ((List.range m).map fun i : Nat => (s (i + 1), delay / ((N : K) - 1) / (k : K)))
    d.window = delay / ((N : K) - 1) ∧ d.time = ((m % k : Nat) : K) * (delay / ((N : K) - 1) / (k : K)) ∧ d.idx = (m / k) % N ∧
      ∀ j < N, d.data j = slotValue N k s (m / k) j := by
  have hNK : (0 : K) < (N : K) - 1 := by
    have : (2 : K) ≤ (N : K) := by exact_mod_cast hN
    linarith
  have hkK : (0 : K) < (k : K) := by exact_mod_cast hk
  set w := delay / ((N : K) - 1) with hwd
  have hw : 0 < w := div_pos hd hNK
  set dt := w / (k : K) with hdt
  have hdtpos : 0 < dt := div_pos hw hkK
  have hkdt : w = (k : K) * dt := by rw [hdt]; field_simp
  induction m with
  | zero =>
    refine ⟨rfl, by simp [Delayer.new, Delayer.addAll], by simp [Delayer.new, Delayer.addAll], ?_⟩
    intro j hj
    unfold slotValue
    simp only [Delayer.new, Delayer.addAll, List.range_zero, List.map_nil, List.foldl_nil, Nat.zero_div, Nat.le_zero]
    by_cases h : j = 0
    · rw [if_pos h, if_pos h]; simp
    · rw [if_neg h, if_neg h]
  | succ m ih =>
    obtain ⟨i1, i2, i3, i4⟩ := ih
    have e : (Delayer.new N delay (s 0)).addAll N ((List.range (m + 1)).map fun i : Nat => (s (i + 1), dt)) =
        ((Delayer.new N delay (s 0)).addAll N ((List.range m).map fun i : Nat => (s (i + 1), dt))).addSample N (s (m + 1)) dt := by
      unfold Delayer.addAll
      rw [List.range_succ, List.map_append, List.foldl_append]
      rfl
    rw [e]
    set d := (Delayer.new N delay (s 0)).addAll N ((List.range m).map fun i : Nat => (s (i + 1), dt))
    obtain ⟨c1, c2⟩ := div_mod_succ m k hk
    have hlt := Nat.mod_lt m hk
    have htrig : (d.time + dt + 0.5 * dt > d.window) ↔ m % k + 1 = k := by
      rw [i1, i2, hkdt]
      constructor
      · intro h
        have h2 : (k : K) * dt < (((m % k : Nat) : K) + 2) * dt := by norm_num at h; linarith
        have h3 := lt_of_mul_lt_mul_right h2 hdtpos.le
        have h4 : k < m % k + 2 := by exact_mod_cast h3
        omega
      · intro h
        have : (k : K) = ((m % k : Nat) : K) + 1 := by exact_mod_cast h.symm
        rw [this]
        norm_num
        linarith
    unfold Delayer.addSample
    dsimp only
    by_cases hm : m % k + 1 = k
    · rw [if_pos (htrig.2 hm)]
      obtain ⟨e1, e2⟩ := c1 hm
      refine ⟨i1, ?_, ?_, ?_⟩
      · dsimp only
        rw [i1, i2, e2, hkdt]
        have : (k : K) = ((m % k : Nat) : K) + 1 := by exact_mod_cast hm.symm
        rw [this]
        push_cast
        ring
      · dsimp only
        rw [i3, e1, Nat.mod_add_mod]
      · intro j hj
        dsimp only
        rw [i3, Nat.mod_add_mod, e1, slotValue_succ N k s _ j hj, ← i4 j hj]
        have : k * (m / k + 1) = m + 1 := by
          have := Nat.div_add_mod m k
          rw [Nat.mul_add]
          omega
        rw [this]
    · rw [if_neg (fun h => hm (htrig.1 h))]
      obtain ⟨e1, e2⟩ := c2 hm
      refine ⟨i1, ?_, ?_, ?_⟩
      · dsimp only
        rw [i2, e2]
        push_cast
        ring
      · rw [e1]; exact i3
      · intro j hj
        rw [e1]
        exact i4 j hj

/-- With time steps that are a whole part of the window, the output is the input, interpolated linearly between the ends of windows,
exactly `delay` ago. Sample number 0 is the initial value. -/
theorem C72_exact_delay (N k : Nat) (hN : 2 ≤ N) (hk : 0 < k) (delay : K) (hd : 0 < delay) (s : Nat → K) (m : Nat) (hm : (N - 1) * k ≤ m) :
    ((Delayer.new N delay (s 0)).addAll N ((List.range m).map fun i : Nat => (s (i + 1), delay / ((N : K) - 1) / (k : K)))).delayedValue N =
      let p := (m - (N - 1) * k) / k
      let w := (((m - (N - 1) * k) % k : Nat) : K) / (k : K)
      (1 - w) * s (p * k) + w * s ((p + 1) * k) := by
  obtain ⟨h1, h2, h3, h4⟩ := delayer_state N k hN hk delay hd s m
  set d := (Delayer.new N delay (s 0)).addAll N ((List.range m).map fun i : Nat => (s (i + 1), delay / ((N : K) - 1) / (k : K)))
  have hNK : (0 : K) < (N : K) - 1 := by
    have : (2 : K) ≤ (N : K) := by exact_mod_cast hN
    linarith
  have hkK : (0 : K) < (k : K) := by exact_mod_cast hk
  have hw : 0 < delay / ((N : K) - 1) := div_pos hd hNK
  have hq : m / k = (m - (N - 1) * k) / k + (N - 1) := by
    conv_lhs => rw [show m = (m - (N - 1) * k) + (N - 1) * k by omega]
    exact Nat.add_mul_div_right _ _ hk
  have hr : (m - (N - 1) * k) % k = m % k := by
    conv_rhs => rw [show m = (m - (N - 1) * k) + (N - 1) * k by omega]
    rw [Nat.add_mul_mod_self_right]
  dsimp only
  rw [hr]
  set p := (m - (N - 1) * k) / k
  unfold Delayer.delayedValue
  dsimp only
  have hNpos : 0 < N := by omega
  rw [h1, h2, h3, h4 _ (Nat.mod_lt _ hNpos), h4 _ (Nat.mod_lt _ hNpos), hq]
  have j1 : ((p + (N - 1)) % N + N + 1) % N = p % N := by
    rw [Nat.add_assoc, Nat.mod_add_mod, show p + (N - 1) + (N + 1) = p + N + N by omega, Nat.add_mod_right, Nat.add_mod_right]
  have j2 : ((p + (N - 1)) % N + N + 2) % N = (p + 1) % N := by
    rw [Nat.add_assoc, Nat.mod_add_mod, show p + (N - 1) + (N + 2) = (p + 1) + N + N by omega, Nat.add_mod_right, Nat.add_mod_right]
  rw [j1, j2]
  have v1 : slotValue N k s (p + (N - 1)) (p % N) = s (p * k) := by
    unfold slotValue
    have hle := Nat.mod_le p N
    rw [if_pos (by omega)]
    have : (p + (N - 1) - p % N) % N = N - 1 := by
      have hdm := Nat.div_add_mod p N
      rw [show p + (N - 1) - p % N = (N - 1) + N * (p / N) by omega, Nat.add_mul_mod_self_left, Nat.mod_eq_of_lt (by omega)]
    rw [this, Nat.add_sub_cancel, Nat.mul_comm]
  have v2 : slotValue N k s (p + (N - 1)) ((p + 1) % N) = s ((p + 1) * k) := by
    unfold slotValue
    have hle := Nat.mod_le (p + 1) N
    rw [if_pos (by omega)]
    have : (p + (N - 1) - (p + 1) % N) % N = N - 2 := by
      have hdm := Nat.div_add_mod (p + 1) N
      rw [show p + (N - 1) - (p + 1) % N = (N - 2) + N * ((p + 1) / N) by omega, Nat.add_mul_mod_self_left, Nat.mod_eq_of_lt (by omega)]
    rw [this, show p + (N - 1) - (N - 2) = p + 1 by omega, Nat.mul_comm]
  rw [v1, v2]
  have hw' : ((m % k : Nat) : K) * (delay / ((N : K) - 1) / (k : K)) / (delay / ((N : K) - 1)) = ((m % k : Nat) : K) / (k : K) := by
    field_simp
  rw [hw']
  ring

example : ((Delayer.new 3 (4 : ℚ) 7).addAll 3 ([(1, 1), (2, 1), (3, 1), (4, 1), (5, 1)])).delayedValue 3 = 9/2 ∧
    ((Delayer.new 3 (4 : ℚ) 7).addAll 3 ([(1, 1), (2, 1), (3, 1), (4, 1), (5, 1), (6, 1), (7, 1)])).delayedValue 3 = 3 := by decide +kernel

/-! ### The smooth form -/

namespace SmoothDelayer

/-- What holds between calls. -/
def Inv (lo hi : K) (d : SmoothDelayer K) : Prop :=
  0 ≤ d.time ∧ d.time < d.window ∧ lo * d.time ≤ d.inter ∧ d.inter ≤ hi * d.time ∧ ∀ i, lo ≤ d.data i ∧ d.data i ≤ hi

theorem inv_step (N : Nat) (lo hi : K) (d : SmoothDelayer K) (v dt : K) (h : d.Inv lo hi) (hv : lo ≤ v ∧ v ≤ hi) (hdt : 0 ≤ dt) (hdt' : dt ≤ d.window) :
    (d.addSample N v dt).Inv lo hi ∧ (d.addSample N v dt).window = d.window := by
  obtain ⟨h1, h2, h3, h4, h5⟩ := h
  have hw : 0 < d.window := lt_of_le_of_lt h1 h2
  unfold addSample
  dsimp only
  split
  · rename_i ht
    refine ⟨⟨?_, ?_, ?_, ?_, ?_⟩, rfl⟩
    · dsimp only; linarith
    · dsimp only; linarith
    · dsimp only; nlinarith
    · dsimp only; nlinarith
    · intro i
      dsimp only
      split
      · rw [le_div_iff₀ hw, div_le_iff₀ hw]
        constructor <;> nlinarith
      · exact h5 i
  · rename_i ht
    refine ⟨⟨?_, ?_, ?_, ?_, h5⟩, rfl⟩
    · dsimp only; linarith
    · dsimp only; linarith
    · dsimp only; nlinarith
    · dsimp only; nlinarith

theorem inv_all (N : Nat) (lo hi : K) (l : List (K × K)) (d : SmoothDelayer K) (h : d.Inv lo hi) (hv : ∀ s ∈ l, lo ≤ s.1 ∧ s.1 ≤ hi)
    (hdt : ∀ s ∈ l, 0 ≤ s.2 ∧ s.2 ≤ d.window) : (d.addAll N l).Inv lo hi ∧ (d.addAll N l).window = d.window := by
  induction l generalizing d with
  | nil => exact ⟨h, rfl⟩
  | cons s l ih =>
    obtain ⟨h1, h2⟩ := inv_step N lo hi d s.1 s.2 h (hv s (List.mem_cons_self ..)) (hdt s (List.mem_cons_self ..)).1 (hdt s (List.mem_cons_self ..)).2
    obtain ⟨h3, h4⟩ := ih (d.addSample N s.1 s.2) h1 (fun s hs => hv s (List.mem_cons_of_mem _ hs))
      (by rw [h2]; exact fun s hs => hdt s (List.mem_cons_of_mem _ hs))
    exact ⟨h3, h4.trans h2⟩

end SmoothDelayer

/-- The smooth form stays within any bounds of the samples, the initial value and zero, for steps not longer than a window. -/
theorem C72_smooth_convex (N : Nat) (hN : 2 ≤ N) (delay init lo hi : K) (hd : 0 < delay) (l : List (K × K)) (h0 : lo ≤ 0 ∧ 0 ≤ hi)
    (hi0 : lo ≤ init ∧ init ≤ hi) (hs : ∀ s ∈ l, lo ≤ s.1 ∧ s.1 ≤ hi) (hdt : ∀ s ∈ l, 0 ≤ s.2 ∧ s.2 ≤ delay / ((N : K) - 0.5)) :
    lo ≤ ((SmoothDelayer.new N delay init).addAll N l).delayedValue N ∧ ((SmoothDelayer.new N delay init).addAll N l).delayedValue N ≤ hi := by
  have hNK : (0 : K) < (N : K) - 0.5 := by
    have : (2 : K) ≤ (N : K) := by exact_mod_cast hN
    norm_num
    linarith
  have hw : 0 < delay / ((N : K) - 0.5) := div_pos hd hNK
  have hinit : (SmoothDelayer.new N delay init).Inv lo hi := by
    refine ⟨le_rfl, hw, ?_, ?_, ?_⟩
    · simp [SmoothDelayer.new]
    · simp [SmoothDelayer.new]
    · intro i
      unfold SmoothDelayer.new
      dsimp only
      split
      · exact hi0
      · exact h0
  obtain ⟨⟨i1, i2, _, _, i5⟩, hwin⟩ := SmoothDelayer.inv_all N lo hi l _ hinit hs hdt
  have e : (SmoothDelayer.new N delay init).window = delay / ((N : K) - 0.5) := rfl
  rw [e] at hwin
  set d := (SmoothDelayer.new N delay init).addAll N l
  unfold SmoothDelayer.delayedValue
  dsimp only
  rw [hwin] at i2 ⊢
  obtain ⟨a1, a2⟩ := i5 ((d.idx + N + 2) % N)
  obtain ⟨b1, b2⟩ := i5 ((d.idx + N + 1) % N)
  set w := d.time / (delay / ((N : K) - 0.5))
  have w0 : 0 ≤ w := div_nonneg i1 hw.le
  have w1 : w ≤ 1 := (div_le_one hw).2 i2.le
  constructor <;> nlinarith

namespace SmoothDelayer

/-- The number of averages stored. -/
def stores (N : Nat) (d : SmoothDelayer K) : List (K × K) → Nat
  | [] => 0
  | s :: l => (if d.time + s.2 ≥ d.window then 1 else 0) + stores N (d.addSample N s.1 s.2) l

/-- The last `k` slots written hold `c`, and the running sum is that of `c`. -/
def Filled (N : Nat) (d : SmoothDelayer K) (c : K) (k : Nat) : Prop :=
  d.inter = c * d.time ∧ d.idx < N ∧ ∀ j < k, d.data ((d.idx + (N - j)) % N) = c

omit [IsStrictOrderedRing K] in
theorem filled_step (N : Nat) (d : SmoothDelayer K) (c dt : K) (k : Nat) (hk : k ≤ N) (hw : d.window ≠ 0) (h : d.Filled N c k) :
    (d.addSample N c dt).Filled N c (min N (k + (if d.time + dt ≥ d.window then 1 else 0))) := by
  obtain ⟨h0, h1, h2⟩ := h
  unfold addSample
  dsimp only
  split
  · refine ⟨by dsimp only; ring, Nat.mod_lt _ (by omega), ?_⟩
    intro j hj
    dsimp only
    have hj' : j < N := by omega
    have hmod : ((d.idx + 1) % N + (N - j)) % N = (d.idx + 1 + (N - j)) % N := by rw [Nat.add_mod, Nat.mod_mod, ← Nat.add_mod]
    rw [hmod]
    split
    · rw [h0, div_eq_iff hw]
      ring
    · rename_i hne
      cases j with
      | zero => simp at hne
      | succ j =>
        have : d.idx + 1 + (N - (j + 1)) = d.idx + (N - j) := by omega
        rw [this]
        exact h2 j (by omega)
  · exact ⟨by dsimp only; rw [h0]; ring, h1, fun j hj => h2 j (by omega)⟩

omit [IsStrictOrderedRing K] in
theorem addSample_window (N : Nat) (d : SmoothDelayer K) (v dt : K) : (d.addSample N v dt).window = d.window := by
  unfold addSample
  dsimp only
  split <;> rfl

omit [IsStrictOrderedRing K] in
theorem filled_all (N : Nat) (c : K) (l : List (K × K)) (hl : ∀ s ∈ l, s.1 = c) (d : SmoothDelayer K) (k : Nat) (hk : k ≤ N) (hw : d.window ≠ 0)
    (h : d.Filled N c k) : (d.addAll N l).Filled N c (min N (k + stores N d l)) := by
  induction l generalizing d k with
  | nil =>
    simp only [addAll, List.foldl_nil, stores, Nat.add_zero]
    rw [Nat.min_eq_right hk]
    exact h
  | cons s l ih =>
    have hs : s.1 = c := hl s (List.mem_cons_self ..)
    have e : d.addAll N (s :: l) = (d.addSample N s.1 s.2).addAll N l := rfl
    rw [e, stores, hs]
    have h1 := filled_step N d c s.2 k hk hw h
    have h2 := ih (fun s hs => hl s (List.mem_cons_of_mem _ hs)) _ _ (Nat.min_le_left ..) (by rw [addSample_window]; exact hw) h1
    refine ⟨h2.1, h2.2.1, fun j hj => h2.2.2 j ?_⟩
    omega

omit [IsStrictOrderedRing K] in
theorem filled_value (N : Nat) (d : SmoothDelayer K) (c : K) (hN : 0 < N) (h : d.Filled N c N) : d.delayedValue N = c :=
  Delayer.filled_value N ⟨d.window, d.time, d.idx, d.data⟩ c hN h.2

theorem stores_time (N : Nat) (l : List (K × K)) (d : SmoothDelayer K) (ht : d.time < d.window) (hl : ∀ s ∈ l, 0 ≤ s.2 ∧ s.2 ≤ d.window) :
    (d.addAll N l).time < d.window ∧ (d.addAll N l).time = d.time + (l.map Prod.snd).sum - (stores N d l : K) * d.window := by
  induction l generalizing d with
  | nil => simp [addAll, stores, ht]
  | cons s l ih =>
    obtain ⟨h1, h2⟩ := hl s (List.mem_cons_self ..)
    have e : d.addAll N (s :: l) = (d.addSample N s.1 s.2).addAll N l := rfl
    have hw := addSample_window N d s.1 s.2
    have ht' : (d.addSample N s.1 s.2).time < (d.addSample N s.1 s.2).window := by
      rw [hw]
      unfold addSample
      dsimp only
      split
      · dsimp only; linarith
      · rename_i hno
        dsimp only
        linarith
    obtain ⟨i1, i2⟩ := ih (d.addSample N s.1 s.2) ht' (by rw [hw]; exact fun s hs => hl s (List.mem_cons_of_mem _ hs))
    rw [e, stores]
    rw [hw] at i1 i2
    refine ⟨i1, ?_⟩
    rw [i2, List.map_cons, List.sum_cons]
    unfold addSample
    dsimp only
    split
    · dsimp only; push_cast; ring
    · dsimp only; push_cast; ring

end SmoothDelayer

/-- A constant input to the smooth form gives this constant, after the time of `N + 1` windows, for steps not longer than a window. -/
theorem C72_smooth_constant (N : Nat) (hN : 2 ≤ N) (delay init c : K) (hd : 0 < delay) (l : List (K × K)) (hc : ∀ s ∈ l, s.1 = c)
    (hdt : ∀ s ∈ l, 0 ≤ s.2 ∧ s.2 ≤ delay / ((N : K) - 0.5)) (htot : ((N : K) + 1) * (delay / ((N : K) - 0.5)) ≤ (l.map Prod.snd).sum) :
    ((SmoothDelayer.new N delay init).addAll N l).delayedValue N = c := by
  have hNK : (0 : K) < (N : K) - 0.5 := by
    have : (2 : K) ≤ (N : K) := by exact_mod_cast hN
    norm_num
    linarith
  have hw : 0 < delay / ((N : K) - 0.5) := div_pos hd hNK
  obtain ⟨h1, h2⟩ := SmoothDelayer.stores_time N l (SmoothDelayer.new N delay init) hw hdt
  have hst : N ≤ SmoothDelayer.stores N (SmoothDelayer.new N delay init) l := by
    have e : (SmoothDelayer.new N delay init).window = delay / ((N : K) - 0.5) := rfl
    have e' : (SmoothDelayer.new N delay init).time = 0 := rfl
    rw [e] at h1 h2
    rw [e'] at h2
    have : (N : K) * (delay / ((N : K) - 0.5)) ≤ (SmoothDelayer.stores N (SmoothDelayer.new N delay init) l : K) * (delay / ((N : K) - 0.5)) := by nlinarith
    have := le_of_mul_le_mul_right this hw
    exact_mod_cast this
  have hf := SmoothDelayer.filled_all N c l hc (SmoothDelayer.new N delay init) 0 (by omega) hw.ne'
    ⟨by simp [SmoothDelayer.new], by show 0 < N; omega, by intro j hj; omega⟩
  rw [Nat.min_eq_left (by omega)] at hf
  exact SmoothDelayer.filled_value N _ c (by omega) hf

example : ((SmoothDelayer.new 2 (3 : ℚ) 0).addAll 2 [(1, 1), (5, 1), (5, 1), (5, 1), (5, 1)]).delayedValue 2 = 4 := by decide +kernel

end Flut
