import Verif.Model.FloatDelayer
import Verif.Props.FloatInterp
import Verif.Props.FloatPoly
import Verif.Props.Delayer

/-! # Property theorems: delayers in floating-point arithmetic (C124) -/

namespace Flut

open Spec FloatMath

private theorem hs : Fmt.single = .double ∨ Fmt.single = .single := Or.inr rfl

/-! ## The clock -/

/-- The difference of two numbers, one of them at least half and at most twice the other, is a number. -/
theorem sub_near_binary {p : Nat} {e : Int} {x y : ℚ} (hx : IsBinary p e x) (hy : IsBinary p e y) (h1 : y / 2 ≤ x) (h2 : x ≤ 2 * y) :
    IsBinary p e (x - y) := by
  obtain ⟨m, j, hm, hj, rfl⟩ := hx
  obtain ⟨n, k, hn, hk, rfl⟩ := hy
  have hy0 : 0 ≤ (n : ℚ) * 2 ^ k := by linarith
  -- both are multiples of the smaller power
  rcases le_total j k with h | h
  · obtain ⟨d, rfl⟩ := Int.le.dest h
    have e1 : (n : ℚ) * 2 ^ (j + d) = ((n * 2 ^ d : Int) : ℚ) * 2 ^ j := by
      rw [zpow_add₀ (by norm_num), zpow_natCast]; push_cast; ring
    rw [e1] at h1 h2 hy0 ⊢
    have hp : (0 : ℚ) < 2 ^ j := by positivity
    have a1 : (n * 2 ^ d : Int) ≤ 2 * m := by
      have : ((n * 2 ^ d : Int) : ℚ) * 2 ^ j ≤ (2 * m : ℚ) * 2 ^ j := by linarith
      exact_mod_cast le_of_mul_le_mul_right this hp
    have a2 : m ≤ 2 * (n * 2 ^ d) := by
      have : (m : ℚ) * 2 ^ j ≤ ((2 * (n * 2 ^ d) : Int) : ℚ) * 2 ^ j := by push_cast at h2 ⊢; linarith
      exact_mod_cast le_of_mul_le_mul_right this hp
    have a3 : 0 ≤ n * 2 ^ d := by
      by_contra hc
      have : ((n * 2 ^ d : Int) : ℚ) < 0 := by exact_mod_cast not_le.1 hc
      have := mul_neg_of_neg_of_pos this hp
      linarith
    refine ⟨m - n * 2 ^ d, j, ?_, hj, by push_cast; ring⟩
    rw [abs_lt] at hm ⊢
    generalize n * 2 ^ d = z at *
    constructor <;> omega
  · obtain ⟨d, rfl⟩ := Int.le.dest h
    have e1 : (m : ℚ) * 2 ^ (k + d) = ((m * 2 ^ d : Int) : ℚ) * 2 ^ k := by
      rw [zpow_add₀ (by norm_num), zpow_natCast]; push_cast; ring
    rw [e1] at h1 h2 ⊢
    have hp : (0 : ℚ) < 2 ^ k := by positivity
    have a1 : n ≤ 2 * (m * 2 ^ d) := by
      have : (n : ℚ) * 2 ^ k ≤ ((2 * (m * 2 ^ d) : Int) : ℚ) * 2 ^ k := by push_cast at h1 ⊢; linarith
      exact_mod_cast le_of_mul_le_mul_right this hp
    have a2 : m * 2 ^ d ≤ 2 * n := by
      have : ((m * 2 ^ d : Int) : ℚ) * 2 ^ k ≤ ((2 * n : Int) : ℚ) * 2 ^ k := by push_cast at h2 ⊢; linarith
      exact_mod_cast le_of_mul_le_mul_right this hp
    have a3 : 0 ≤ n := by
      by_contra hc
      have : (n : ℚ) < 0 := by exact_mod_cast not_le.1 hc
      have := mul_neg_of_neg_of_pos this hp
      linarith
    refine ⟨m * 2 ^ d - n, k, ?_, hk, by push_cast; ring⟩
    rw [abs_lt] at hn ⊢
    generalize m * 2 ^ d = z at *
    constructor <;> omega

/-- One sample. -/
theorem clock_step (N : Nat) (d : Delayer Flt) (v dt : Flt) (W T q : ℚ) (hW : Stands .single d.window W) (hT : Stands .single d.time T)
    (hq : Stands .single dt q) (hWm : 3 * W ≤ Fmt.single.maxVal) (h0 : 0 ≤ q) (h1 : q ≤ W) (t0 : -(W / 2) ≤ T) (t1 : T ≤ W) :
    (delayerAdd N d v dt).window = d.window ∧ ∃ (T' : ℚ) (j : Nat), Stands .single (delayerAdd N d v dt).time T' ∧ -(W / 2) ≤ T' ∧ T' ≤ W ∧
      ((j = 0 ∧ (delayerAdd N d v dt).idx = d.idx ∧ (delayerAdd N d v dt).data = d.data) ∨
        (j = 1 ∧ (delayerAdd N d v dt).idx = (d.idx + 1) % N ∧
          (delayerAdd N d v dt).data = fun i => if i = (d.idx + 1) % N then v else d.data i)) ∧
      |(j : ℚ) * W + T' - (T + q)| ≤ 2 * W / 2 ^ 24 := by
  have hp := prec_pos hs
  have hW0 : 0 ≤ W := h0.trans h1
  have A := add_stands hs hT hq (by rw [abs_le]; constructor <;> linarith)
  have eA : |Fmt.single.srnd (T + q) - (T + q)| ≤ 2 * W / 2 ^ 24 := by
    have := srnd_rel (f := .single) hp (q := T + q) (multiple_add (binary_mul hT.binary) (binary_mul hq.binary))
    refine this.trans ?_
    rw [show Fmt.single.prec = 24 from rfl]
    apply div_le_div_of_nonneg_right _ (by norm_num)
    rw [abs_le]; constructor <;> linarith
  have two : IsBinary 24 (-149) (2 * W) := by
    obtain ⟨m, e, hm, he, rfl⟩ := hW.binary
    refine ⟨m, e + 1, hm, he.trans (by omega), ?_⟩
    rw [zpow_add₀ (by norm_num)]; ring
  have hA3 : T ≤ Fmt.single.srnd (T + q) := Fmt.le_srnd hp hT.binary (by linarith)
  have hA2 : Fmt.single.srnd (T + q) ≤ 2 * W := Fmt.srnd_le hp two (by linarith)
  have half : Stands .single (.fin false (1 / 2)) (1 / 2) := ⟨⟨by norm_num, by decide +kernel, 1, -1, by decide, by decide, by norm_num⟩, rfl⟩
  have H := mul_stands hs half hq (by rw [abs_of_nonneg (by positivity)]; linarith)
  have hH0 : 0 ≤ Fmt.single.srnd (1 / 2 * q) := srnd_pos_le (by linarith)
  have B := binary_mul A.binary
  generalize Fmt.single.srnd (T + q) = t at A eA hA2 hA3 B
  generalize hhd : Fmt.single.srnd (1 / 2 * q) = h at H hH0
  -- when the sample is stored, the clock is past half of the window
  have far : W < t + h → W / 2 ≤ t := by
    intro hlt
    obtain ⟨m, e, hm, he, hWe⟩ := hW.binary
    have hm0 : 0 ≤ m := by
      by_contra hc
      have : (m : ℚ) < 0 := by exact_mod_cast not_le.1 hc
      have : (m : ℚ) * 2 ^ e < 0 := mul_neg_of_neg_of_pos this (by positivity)
      linarith
    rcases (show Fmt.single.emin ≤ e from he).eq_or_lt with he | he
    · obtain ⟨z, hz⟩ := B
      rw [he] at hz
      have hp2 : (0 : ℚ) < 2 ^ e := by positivity
      have up : h ≤ (((m + 1) / 2 : Int) : ℚ) * 2 ^ e := by
        rw [← hhd]
        refine Fmt.srnd_le hp ⟨(m + 1) / 2, e, ?_, he.le, rfl⟩ ?_
        · rw [abs_of_nonneg hm0] at hm
          rw [abs_of_nonneg (by omega)]
          have : (1 : Int) < 2 ^ Fmt.single.prec := by decide
          omega
        · have h2 : m ≤ 2 * ((m + 1) / 2) := by omega
          have h3 : (m : ℚ) ≤ 2 * (((m + 1) / 2 : Int) : ℚ) := by exact_mod_cast h2
          have h4 := mul_le_mul_of_nonneg_right h3 hp2.le
          rw [hWe] at h1
          linarith
      have h5 : (m : ℚ) * 2 ^ e < (z + ((m + 1) / 2 : Int) : ℚ) * 2 ^ e := by rw [← hWe]; linarith
      have h6 : m < z + (m + 1) / 2 := by exact_mod_cast lt_of_mul_lt_mul_right h5 hp2.le
      have h7 : m ≤ 2 * z := by omega
      have h8 : (m : ℚ) ≤ 2 * z := by exact_mod_cast h7
      have h9 := mul_le_mul_of_nonneg_right h8 hp2.le
      rw [hWe, hz]
      linarith
    · have hb : IsBinary Fmt.single.prec Fmt.single.emin (W / 2) := by
        refine ⟨m, e - 1, hm, by omega, ?_⟩
        rw [hWe, zpow_sub₀ (by norm_num)]; ring
      have : h ≤ W / 2 := by rw [← hhd]; exact Fmt.srnd_le hp hb (by linarith)
      linarith
  have S := add_stands hs A H (by
    have hh : h ≤ W := by rw [← hhd]; exact Fmt.srnd_le hp hW.binary (by linarith)
    rw [abs_le]; constructor <;> linarith)
  have hlt := lt_stands hW S
  unfold delayerAdd
  dsimp only
  by_cases hc : d.window.lt (Fmt.single.add (Fmt.single.add d.time dt) (Fmt.single.mul (.fin false (1 / 2)) dt)) = true
  · rw [if_pos hc]
    have h2 : W < t + h := by
      by_contra hc'
      have := Fmt.srnd_le (f := .single) hp hW.binary (not_lt.1 hc')
      exact absurd (hlt.1 hc) (not_lt.2 this)
    have h3 := far h2
    have hb := sub_near_binary A.binary hW.binary h3 hA2
    have D := sub_stands hs A hW (by rw [abs_le]; constructor <;> linarith)
    rw [Fmt.srnd_self hp hb] at D
    refine ⟨rfl, t - W, 1, D, by linarith, by linarith, Or.inr ⟨rfl, rfl, rfl⟩, ?_⟩
    have e : ((1 : Nat) : ℚ) * W + (t - W) - (T + q) = t - (T + q) := by push_cast; ring
    rw [e]; exact eA
  · rw [if_neg hc]
    have h2 : t ≤ W := by
      by_contra hc'
      apply hc
      rw [hlt]
      have := Fmt.le_srnd (f := .single) hp A.binary (show t ≤ t + h by linarith)
      linarith
    refine ⟨rfl, t, 0, A, ?_, h2, Or.inl ⟨rfl, rfl, rfl⟩, ?_⟩
    · linarith
    · have e : ((0 : Nat) : ℚ) * W + t - (T + q) = t - (T + q) := by push_cast; ring
      rw [e]; exact eA

/-- C124. The clock of a delayer: the windows that have passed and the time in the current one add up to the sum of the steps, to two units of the
window for every sample. Each window that passes moves the place where samples are stored on by one. -/
theorem C124_clock (N : Nat) (d : Delayer Flt) (W : ℚ) (hW : Stands .single d.window W) (h0 : Stands .single d.time 0) (hi : d.idx < N)
    (hWm : 3 * W ≤ Fmt.single.maxVal) (hW0 : 0 ≤ W) (ss : List (Flt × Flt)) (qs : List ℚ)
    (hq : List.Forall₂ (fun s q => Stands .single s.2 q ∧ 0 ≤ q ∧ q ≤ W) ss qs) :
    ∃ (T : ℚ) (k : Nat), Stands .single (delayerAll N d ss).time T ∧ -(W / 2) ≤ T ∧ T ≤ W ∧ (delayerAll N d ss).idx = (d.idx + k) % N ∧
      |(k * W + T) - qs.sum| ≤ ss.length * (2 * W / 2 ^ 24) := by
  have gen : ∀ (ss : List (Flt × Flt)) (qs : List ℚ) (d : Delayer Flt) (T : ℚ), Stands .single d.window W → Stands .single d.time T → d.idx < N →
      -(W / 2) ≤ T → T ≤ W → List.Forall₂ (fun s q => Stands .single s.2 q ∧ 0 ≤ q ∧ q ≤ W) ss qs →
      ∃ (T' : ℚ) (k : Nat), Stands .single (delayerAll N d ss).time T' ∧ -(W / 2) ≤ T' ∧ T' ≤ W ∧ (delayerAll N d ss).idx = (d.idx + k) % N ∧
        |(k * W + T') - (T + qs.sum)| ≤ ss.length * (2 * W / 2 ^ 24) := by
    intro ss
    induction ss with
    | nil =>
      intro qs d T hW hT hi t0 t1 hq
      cases hq
      exact ⟨T, 0, hT, t0, t1, by rw [Nat.add_zero, Nat.mod_eq_of_lt hi]; rfl, by simp⟩
    | cons s ss ih =>
      intro qs d T hW hT hi t0 t1 hq
      obtain _ | ⟨⟨a1, a2, a3⟩, hq'⟩ := hq
      rename_i q qs
      obtain ⟨w, T1, j, b1, b2, b3, b4, b5⟩ := clock_step N d s.1 s.2 W T q hW hT a1 hWm a2 a3 t0 t1
      have hN : 0 < N := by omega
      have hidx : (delayerAdd N d s.1 s.2).idx < N ∧ (delayerAdd N d s.1 s.2).idx = (d.idx + j) % N := by
        rcases b4 with ⟨rfl, h, _⟩ | ⟨rfl, h, _⟩
        · rw [h, Nat.add_zero, Nat.mod_eq_of_lt hi]; exact ⟨hi, rfl⟩
        · rw [h]; exact ⟨Nat.mod_lt _ hN, rfl⟩
      obtain ⟨T2, k, c1, c2, c3, c4, c5⟩ := ih qs (delayerAdd N d s.1 s.2) T1 (by rw [w]; exact hW) b1 hidx.1 b2 b3 hq'
      refine ⟨T2, j + k, c1, c2, c3, ?_, ?_⟩
      · show (delayerAll N (delayerAdd N d s.1 s.2) ss).idx = _
        rw [c4, hidx.2, Nat.mod_add_mod, Nat.add_assoc]
      · have e : ((j + k : Nat) : ℚ) * W + T2 - (T + (q :: qs).sum) = (k * W + T2 - (T1 + qs.sum)) + (j * W + T1 - (T + q)) := by
          rw [List.sum_cons]; push_cast; ring
        rw [e, List.length_cons]
        have := abs_add_le (k * W + T2 - (T1 + qs.sum)) (j * W + T1 - (T + q))
        push_cast
        linarith
  obtain ⟨T, k, h1, h2, h3, h4, h5⟩ := gen ss qs d 0 hW h0 hi (by linarith) hW0 hq
  rw [zero_add] at h5
  exact ⟨T, k, h1, h2, h3, h4, h5⟩

/-! ## Steps that are exact -/

/-- The state of a delayer stands for that of a delayer with exact arithmetic. -/
structure DelayerStands (d : Delayer Flt) (e : Delayer ℚ) : Prop where
  window : Stands .single d.window e.window
  time : Stands .single d.time e.time
  idx : d.idx = e.idx
  data : ∀ i, Stands .single (d.data i) (e.data i)

/-- One sample, if window and steps are multiples of a common power of two. -/
theorem exact_step (N : Nat) (d : Delayer Flt) (e : Delayer ℚ) (v dt : Flt) (x : ℚ) (k : Int) (a b : Nat) (t : Int)
    (h : DelayerStands d e) (hv : Stands .single v x) (hdt : Stands .single dt (b * 2 ^ k)) (hk : -149 < k) (ha : a ≤ 2 ^ 21) (hb : b ≤ a)
    (hW : e.window = a * 2 ^ k) (hWm : 3 * e.window ≤ Fmt.single.maxVal) (hT : e.time = t * 2 ^ k) (t0 : -(a : Int) ≤ t) (t1 : t ≤ a) :
    DelayerStands (delayerAdd N d v dt) (e.addSample N x (b * 2 ^ k)) ∧ (e.addSample N x (b * 2 ^ k)).window = e.window ∧
      ∃ t' : Int, (e.addSample N x (b * 2 ^ k)).time = t' * 2 ^ k ∧ -(a : Int) ≤ t' ∧ t' ≤ a := by
  have hp := prec_pos hs
  have hg : (0 : ℚ) < 2 ^ k := by positivity
  have bin : ∀ m : Int, |m| < 2 ^ 24 → IsBinary Fmt.single.prec Fmt.single.emin (m * 2 ^ k) := fun m hm => ⟨m, k, hm, hk.le, rfl⟩
  have bin' : ∀ m : Int, |m| < 2 ^ 24 → IsBinary Fmt.single.prec Fmt.single.emin (m * 2 ^ (k - 1)) := fun m hm =>
    ⟨m, k - 1, hm, by show -149 ≤ k - 1; omega, rfl⟩
  have hk1 : (2 : ℚ) ^ (k - 1) = 2 ^ k / 2 := by rw [zpow_sub₀ (by norm_num)]; ring
  have haq : (b : ℚ) ≤ a := by exact_mod_cast hb
  have t0q : -(a : ℚ) ≤ t := by exact_mod_cast t0
  have t1q : (t : ℚ) ≤ a := by exact_mod_cast t1
  have hb0 : (0 : ℚ) ≤ b := by positivity
  have mx : ∀ z : ℚ, |z| ≤ 3 * a → |z * 2 ^ k| ≤ Fmt.single.maxVal := by
    intro z hz
    rw [abs_mul, abs_of_pos hg]
    have := mul_le_mul_of_nonneg_right hz hg.le
    rw [hW] at hWm
    linarith
  have hTs := h.time
  have hWs := h.window
  rw [hT] at hTs
  rw [hW] at hWs
  have A := add_stands hs hTs hdt (by
    rw [← add_mul]
    apply mx
    rw [abs_le]; constructor <;> linarith)
  have e1 : (t : ℚ) * 2 ^ k + b * 2 ^ k = ((t + b : Int) : ℚ) * 2 ^ k := by push_cast; ring
  rw [e1, Fmt.srnd_self hp (bin _ (by rw [abs_lt]; constructor <;> omega))] at A
  have half : Stands .single (.fin false (1 / 2)) (1 / 2) := ⟨⟨by norm_num, by decide +kernel, 1, -1, by decide, by decide, by norm_num⟩, rfl⟩
  have e2 : (1 / 2 : ℚ) * (b * 2 ^ k) = ((b : Int) : ℚ) * 2 ^ (k - 1) := by rw [hk1]; push_cast; ring
  have H := mul_stands hs half hdt (by
    rw [show (1 / 2 : ℚ) * (b * 2 ^ k) = (b / 2) * 2 ^ k by ring]
    apply mx
    rw [abs_le]; constructor <;> linarith)
  rw [e2, Fmt.srnd_self hp (bin' _ (by rw [abs_lt]; constructor <;> omega))] at H
  have e3 : ((t + b : Int) : ℚ) * 2 ^ k + ((b : Int) : ℚ) * 2 ^ (k - 1) = ((2 * (t + b) + b : Int) : ℚ) * 2 ^ (k - 1) := by
    rw [hk1]; push_cast; ring
  have S := add_stands hs A H (by
    rw [e3, hk1, show ((2 * (t + b) + b : Int) : ℚ) * (2 ^ k / 2) = (((2 * (t + b) + b : Int) : ℚ) / 2) * 2 ^ k by ring]
    apply mx
    push_cast
    rw [abs_le]; constructor <;> linarith)
  rw [e3, Fmt.srnd_self hp (bin' _ (by rw [abs_lt]; constructor <;> omega))] at S
  have hlt := lt_stands hWs S
  have hcond : (e.time + b * 2 ^ k + 0.5 * (b * 2 ^ k) > e.window) ↔ (a : ℚ) * 2 ^ k < ((2 * (t + b) + b : Int) : ℚ) * 2 ^ (k - 1) := by
    rw [hT, hW, ← e3, hk1]
    push_cast
    norm_num
    constructor <;> intro h <;> linarith
  unfold delayerAdd Delayer.addSample
  dsimp only
  by_cases hc : (a : ℚ) * 2 ^ k < ((2 * (t + b) + b : Int) : ℚ) * 2 ^ (k - 1)
  · rw [if_pos (hlt.2 hc), if_pos (hcond.2 hc)]
    have hc' : 2 * (a : Int) < 2 * (t + b) + b := by
      rw [hk1] at hc
      have : (2 * (a : ℚ)) * (2 ^ k / 2) < ((2 * (t + b) + b : Int) : ℚ) * (2 ^ k / 2) := by linarith
      have := lt_of_mul_lt_mul_right this (by positivity)
      exact_mod_cast this
    have e4 : ((t + b : Int) : ℚ) * 2 ^ k - a * 2 ^ k = ((t + b - a : Int) : ℚ) * 2 ^ k := by push_cast; ring
    have D := sub_stands hs A hWs (by
      rw [← sub_mul]
      apply mx
      push_cast
      rw [abs_le]; constructor <;> linarith)
    rw [e4, Fmt.srnd_self hp (bin _ (by rw [abs_lt]; constructor <;> omega))] at D
    have e5 : e.time + b * 2 ^ k - e.window = ((t + b - a : Int) : ℚ) * 2 ^ k := by rw [hT, hW]; push_cast; ring
    refine ⟨⟨h.window, by rw [e5]; exact D, by rw [h.idx], ?_⟩, rfl, t + b - a, e5, by omega, by omega⟩
    intro i
    rw [h.idx]
    dsimp only
    split
    · exact hv
    · exact h.data i
  · rw [if_neg (fun hh => hc (hlt.1 hh)), if_neg (fun hh => hc (hcond.1 hh))]
    have hc' : 2 * (t + b) + b ≤ 2 * (a : Int) := by
      rw [hk1] at hc
      by_contra hcc
      apply hc
      have : (2 * (a : ℚ)) < ((2 * (t + b) + b : Int) : ℚ) := by exact_mod_cast not_le.1 hcc
      have := mul_lt_mul_of_pos_right this (show (0 : ℚ) < 2 ^ k / 2 by positivity)
      linarith
    have e5 : e.time + b * 2 ^ k = ((t + b : Int) : ℚ) * 2 ^ k := by rw [hT]; push_cast; ring
    refine ⟨⟨h.window, by rw [e5]; exact A, h.idx, h.data⟩, rfl, t + b, e5, by omega, by omega⟩

/-- C124. If the window and the steps are multiples of one power of two, and the window is at most 2^21 times it, then the delayer is in the state
that exact arithmetic gives, after any number of samples. -/
theorem C124_exact (N : Nat) (hN : 2 ≤ N) (hN' : N ≤ 2 ^ 24) (delay init : Flt) (D I : ℚ) (hD : Stands .single delay D) (hI : Stands .single init I)
    (k : Int) (hk : -149 < k) (a : Nat) (ha : a ≤ 2 ^ 21) (hW : D / ((N : ℚ) - 1) = a * 2 ^ k) (hWm : 3 * (D / ((N : ℚ) - 1)) ≤ Fmt.single.maxVal)
    (ss : List (Flt × Flt)) (qs : List (ℚ × ℚ))
    (h : List.Forall₂ (fun s q => Stands .single s.1 q.1 ∧ Stands .single s.2 q.2 ∧ ∃ b : Nat, b ≤ a ∧ q.2 = (b : ℚ) * 2 ^ k) ss qs) :
    DelayerStands (delayerAll N (delayerNew N delay init) ss) ((Delayer.new N D I).addAll N qs) ∧
      ((Delayer.new N D I).addAll N qs).window = D / ((N : ℚ) - 1) ∧ |((Delayer.new N D I).addAll N qs).time| ≤ D / ((N : ℚ) - 1) := by
  have hp := prec_pos hs
  have gen : ∀ (ss : List (Flt × Flt)) (qs : List (ℚ × ℚ)) (d : Delayer Flt) (e : Delayer ℚ) (t : Int), DelayerStands d e →
      e.window = a * 2 ^ k → 3 * e.window ≤ Fmt.single.maxVal → e.time = t * 2 ^ k → -(a : Int) ≤ t → t ≤ a →
      List.Forall₂ (fun s q => Stands .single s.1 q.1 ∧ Stands .single s.2 q.2 ∧ ∃ b : Nat, b ≤ a ∧ q.2 = (b : ℚ) * 2 ^ k) ss qs →
      DelayerStands (delayerAll N d ss) (e.addAll N qs) ∧ (e.addAll N qs).window = e.window ∧
        ∃ t' : Int, (e.addAll N qs).time = t' * 2 ^ k ∧ -(a : Int) ≤ t' ∧ t' ≤ a := by
    intro ss
    induction ss with
    | nil =>
      intro qs d e t h hW hWm hT t0 t1 hq
      cases hq
      exact ⟨h, rfl, t, hT, t0, t1⟩
    | cons s ss ih =>
      intro qs d e t h hW hWm hT t0 t1 hq
      obtain _ | ⟨⟨a1, a2, b, a3, a4⟩, hq'⟩ := hq
      rename_i q qs
      obtain ⟨x, y⟩ := q
      simp only at a1 a2 a4
      subst a4
      obtain ⟨c1, c2, t', c3, c4, c5⟩ := exact_step N d e s.1 s.2 x k a b t h a1 a2 hk ha a3 hW hWm hT t0 t1
      obtain ⟨d1, d2, d3⟩ := ih qs (delayerAdd N d s.1 s.2) (e.addSample N x (b * 2 ^ k)) t' c1 (by rw [c2, hW]) (by rw [c2]; exact hWm) c3 c4 c5 hq'
      exact ⟨d1, by rw [← c2]; exact d2, d3⟩
  have hN1 : ((N - 1 : Nat) : ℚ) = (N : ℚ) - 1 := by rw [Nat.cast_sub (by omega)]; norm_num
  have hNpos : (0 : ℚ) < (N : ℚ) - 1 := by
    have : (2 : ℚ) ≤ N := by exact_mod_cast hN
    linarith
  have hW0 : 0 ≤ D / ((N : ℚ) - 1) := by rw [hW]; positivity
  have hn : |((N - 1 : Nat) : Int)| < 2 ^ Fmt.single.prec := by
    rw [abs_of_nonneg (by omega)]
    show ((N - 1 : Nat) : Int) < 2 ^ 24
    omega
  have r : Stands .single (Fmt.single.ofRat ((N - 1 : Nat) : ℚ)) ((N : ℚ) - 1) := by
    have := result_stands hs false (q := ((N - 1 : Nat) : ℚ)) (by exact_mod_cast int_max hs hn)
    rw [Fmt.srnd_self hp (by exact_mod_cast int_binary hs hn), hN1] at this
    rw [hN1]
    exact this
  have w := div_stands hs hD r hNpos.ne' (by rw [abs_of_nonneg hW0]; linarith)
  rw [Fmt.srnd_self hp (hW ▸ ⟨a, k, by rw [abs_of_nonneg (by omega)]; show (a : Int) < 2 ^ 24; omega, hk.le, by push_cast; rfl⟩)] at w
  have init : DelayerStands (delayerNew N delay init) (Delayer.new N D I) := by
    refine ⟨w, zero_stands .single hs false, rfl, ?_⟩
    intro i
    show Stands .single (if i = 0 then init else .fin false 0) (if i = 0 then I else 0)
    split
    · exact hI
    · exact zero_stands .single hs false
  obtain ⟨e1, e2, t, e3, e4, e5⟩ := gen ss qs _ _ 0 init hW hWm (by simp [Delayer.new]) (by omega) (by omega) h
  refine ⟨e1, e2, ?_⟩
  rw [e3, hW, abs_mul, abs_of_pos (show (0 : ℚ) < 2 ^ k by positivity)]
  apply mul_le_mul_of_nonneg_right _ (by positivity)
  have : |t| ≤ a := abs_le.2 ⟨e4, e5⟩
  exact_mod_cast this

/-! ## The value -/

/-- C124. The delayed value, for a clock that is at most a window away from zero. -/
theorem C124_value (N : Nat) (d : Delayer Flt) (W T a b M : ℚ) (hW : Stands .single d.window W) (hT : Stands .single d.time T) (hW0 : 0 < W) (hTW : |T| ≤ W)
    (ha : Stands .single (d.data ((d.idx + N + 2) % N)) a) (hb : Stands .single (d.data ((d.idx + N + 1) % N)) b) (hM : |a| ≤ M) (hM' : |b| ≤ M)
    (hm : 4 * M ≤ Fmt.single.maxVal) :
    ∃ v, Stands .single (delayerValue N d) v ∧ |v - (T / W * a + (1 - T / W) * b)| ≤ 11 * M / 2 ^ 24 + 2 * 2 ^ (-149 : Int) := by
  have hp := prec_pos hs
  obtain ⟨k1, k2, k3, k4⟩ := fmt_consts hs
  have hM0 : 0 ≤ M := (abs_nonneg a).trans hM
  have er := fun q : ℚ => srnd_err (f := .single) q
  have em := fun (q : ℚ) (h : ∃ n : Int, q = n * 2 ^ Fmt.single.emin) => srnd_rel (f := .single) hp (q := q) h
  rw [show Fmt.single.prec = 24 from rfl] at er em
  have bin1 : IsBinary Fmt.single.prec Fmt.single.emin 1 := (one_stands hs).binary
  have binm1 : IsBinary Fmt.single.prec Fmt.single.emin (-1) := ⟨-1, 0, by decide, by decide, by norm_num⟩
  have bin2 : IsBinary Fmt.single.prec Fmt.single.emin 2 := ⟨2, 0, by decide, by decide, by norm_num⟩
  obtain ⟨n, hn⟩ : ∃ n : ℚ, n = 2 ^ Fmt.single.emin := ⟨_, rfl⟩
  rw [show (2 : ℚ) ^ (-149 : Int) = n from hn.symm]
  rw [← hn] at k2 k3 er em
  have hx : |T / W| ≤ 1 := by rw [abs_div, abs_of_pos hW0, div_le_one hW0]; exact hTW
  have w1 := div_stands hs hT hW hW0.ne' (by linarith [(by norm_num : (1 : ℚ) ≤ 2 ^ 100)])
  have ew := er (T / W)
  have hw1 : Fmt.single.srnd (T / W) ≤ 1 := Fmt.srnd_le hp bin1 (abs_le.1 hx).2
  have hw0 : -1 ≤ Fmt.single.srnd (T / W) := Fmt.le_srnd hp binm1 (abs_le.1 hx).1
  generalize T / W = x at *
  unfold delayerValue
  dsimp only
  generalize Fmt.single.srnd x = w at w1 ew hw1 hw0
  generalize Fmt.single.div d.time d.window = fw at w1
  have hwa : |w * a| ≤ M := by
    rw [abs_mul]
    have : |w| ≤ 1 := abs_le.2 ⟨hw0, hw1⟩
    calc |w| * |a| ≤ 1 * M := mul_le_mul this hM (abs_nonneg _) (by norm_num)
      _ = M := one_mul M
  have p1 := mul_stands hs w1 ha (by linarith)
  have c1 := sub_stands hs (one_stands hs) w1 (by rw [abs_le]; constructor <;> linarith [(by norm_num : (2 : ℚ) ≤ 2 ^ 100)])
  have ec := em (1 - w) (by rw [sub_eq_add_neg]; exact hn ▸ multiple_add (binary_mul bin1) (multiple_neg (binary_mul w1.binary)))
  have hc2 : Fmt.single.srnd (1 - w) ≤ 2 := Fmt.srnd_le hp bin2 (by linarith)
  have hc0 : 0 ≤ Fmt.single.srnd (1 - w) := srnd_pos_le (by linarith)
  have hc3 : |1 - w| ≤ 2 := by rw [abs_le]; constructor <;> linarith
  generalize Fmt.single.srnd (1 - w) = c at c1 ec hc2 hc0
  have hcb : |c * b| ≤ 2 * M := by
    rw [abs_mul, abs_of_nonneg hc0]
    exact mul_le_mul hc2 hM' (abs_nonneg _) (by norm_num)
  have p2 := mul_stands hs c1 hb (by linarith)
  have e1 := er (w * a)
  have e2 := er (c * b)
  generalize Fmt.single.srnd (w * a) = s1 at p1 e1
  generalize Fmt.single.srnd (c * b) = s2 at p2 e2
  have hn0 := k2
  have small : n ≤ 1 / 2 ^ 30 / 2 ^ 24 := k3.trans (by norm_num)
  have hx' : |x| / 2 ^ 24 ≤ 1 / 2 ^ 24 := div_le_div_of_nonneg_right hx (by norm_num)
  have ewm : |w * a - x * a| ≤ M / 2 ^ 24 + n / 2 * M := by
    rw [← sub_mul, abs_mul]
    calc |w - x| * |a| ≤ (1 / 2 ^ 24 + n / 2) * M := mul_le_mul (by linarith) hM (abs_nonneg _) (by positivity)
      _ = M / 2 ^ 24 + n / 2 * M := by ring
  have hc3' : |1 - w| / 2 ^ 24 ≤ 2 / 2 ^ 24 := div_le_div_of_nonneg_right hc3 (by norm_num)
  have ecx : |c - (1 - x)| ≤ 3 / 2 ^ 24 + n / 2 := by
    have := abs_sub_le c (1 - w) (1 - x)
    have e : |1 - w - (1 - x)| = |w - x| := by rw [show 1 - w - (1 - x) = -(w - x) by ring, abs_neg]
    rw [e] at this
    linarith
  have ecm : |c * b - (1 - x) * b| ≤ 3 * M / 2 ^ 24 + n / 2 * M := by
    rw [← sub_mul, abs_mul]
    calc |c - (1 - x)| * |b| ≤ (3 / 2 ^ 24 + n / 2) * M := mul_le_mul ecx hM' (abs_nonneg _) (by positivity)
      _ = 3 * M / 2 ^ 24 + n / 2 * M := by ring
  have hwa' : |w * a| / 2 ^ 24 ≤ M / 2 ^ 24 := div_le_div_of_nonneg_right hwa (by norm_num)
  have hcb' : |c * b| / 2 ^ 24 ≤ 2 * M / 2 ^ 24 := div_le_div_of_nonneg_right hcb (by norm_num)
  have nM : n * M ≤ 1 / 2 ^ 30 / 2 ^ 24 * M := mul_le_mul_of_nonneg_right small hM0
  have hsum : |s1 + s2| ≤ 3 * M + 3 * M / 2 ^ 24 + n := by
    have a1 := abs_sub_le s1 (w * a) 0
    have a2 := abs_sub_le s2 (c * b) 0
    rw [sub_zero, sub_zero] at a1 a2
    have := abs_add_le s1 s2
    linarith
  have hlim : 3 * M + 3 * M / 2 ^ 24 + n ≤ Fmt.single.maxVal := by
    linarith [(by norm_num : (1 : ℚ) ≤ 2 ^ 100 / 8), (by norm_num : (1 : ℚ) / 2 ^ 30 / 2 ^ 24 ≤ 1)]
  have R := add_stands hs p1 p2 (hsum.trans hlim)
  have eR := em (s1 + s2) (hn ▸ multiple_add (binary_mul p1.binary) (binary_mul p2.binary))
  refine ⟨_, R, ?_⟩
  have hsum' : |s1 + s2| / 2 ^ 24 ≤ (3 * M + 3 * M / 2 ^ 24 + n) / 2 ^ 24 := div_le_div_of_nonneg_right hsum (by norm_num)
  have t1 := abs_sub_le (Fmt.single.srnd (s1 + s2)) (s1 + s2) (x * a + (1 - x) * b)
  have t2 : |s1 + s2 - (x * a + (1 - x) * b)| ≤ |s1 - w * a| + |w * a - x * a| + (|s2 - c * b| + |c * b - (1 - x) * b|) := by
    rw [show s1 + s2 - (x * a + (1 - x) * b) = (s1 - x * a) + (s2 - (1 - x) * b) by ring]
    have := abs_add_le (s1 - x * a) (s2 - (1 - x) * b)
    have a1 := abs_sub_le s1 (w * a) (x * a)
    have a2 := abs_sub_le s2 (c * b) ((1 - x) * b)
    linarith
  linarith

/-- C124. A delayer whose window is a whole number of steps gives the signal as it was one delay ago, interpolated between the samples that were
stored, to eleven units of the largest sample. -/
theorem C124_delay (N k : Nat) (hN : 2 ≤ N) (hN' : N ≤ 2 ^ 24) (hk : 0 < k) (delay dt : Flt) (D : ℚ) (hD : Stands .single delay D)
    (e : Int) (he : -149 < e) (b : Nat) (hb : 0 < b) (hkb : k * b ≤ 2 ^ 21) (hdt : Stands .single dt (b * 2 ^ e)) (hDd : D = (N - 1) * (k * (b * 2 ^ e)))
    (hWm : 3 * (k * (b * 2 ^ e) : ℚ) ≤ Fmt.single.maxVal) (s : Nat → Flt) (q : Nat → ℚ) (M : ℚ) (hsq : ∀ i, Stands .single (s i) (q i) ∧ |q i| ≤ M)
    (hM : 4 * M ≤ Fmt.single.maxVal) (m : Nat) (hm : (N - 1) * k ≤ m) :
    ∃ v, Stands .single (delayerValue N (delayerAll N (delayerNew N delay (s 0)) ((List.range m).map fun i => (s (i + 1), dt)))) v ∧
      let p := (m - (N - 1) * k) / k
      let w := (((m - (N - 1) * k) % k : Nat) : ℚ) / k
      |v - ((1 - w) * q (p * k) + w * q ((p + 1) * k))| ≤ 11 * M / 2 ^ 24 + 2 * 2 ^ (-149 : Int) := by
  have hNpos : (0 : ℚ) < (N : ℚ) - 1 := by
    have : (2 : ℚ) ≤ N := by exact_mod_cast hN
    linarith
  have hkq : (0 : ℚ) < k := by exact_mod_cast hk
  have hbq : (0 : ℚ) < b := by exact_mod_cast hb
  have hg : (0 : ℚ) < 2 ^ e := by positivity
  have hW : D / ((N : ℚ) - 1) = ((k * b : Nat) : ℚ) * 2 ^ e := by
    rw [hDd, mul_div_cancel_left₀ _ hNpos.ne']; push_cast; ring
  have hW0 : 0 < D / ((N : ℚ) - 1) := by rw [hW]; positivity
  have hD0 : 0 < D := by rw [hDd]; positivity
  have hdtq : D / ((N : ℚ) - 1) / (k : ℚ) = b * 2 ^ e := by
    rw [hW]; push_cast; field_simp
  have hW3 : 3 * (D / ((N : ℚ) - 1)) ≤ Fmt.single.maxVal := by rw [hW]; push_cast; linarith
  have hle : b ≤ k * b := Nat.le_mul_of_pos_left b hk
  have fa : List.Forall₂ (fun (x : Flt × Flt) (y : ℚ × ℚ) => Stands .single x.1 y.1 ∧ Stands .single x.2 y.2 ∧ ∃ c : Nat, c ≤ k * b ∧ y.2 = (c : ℚ) * 2 ^ e)
      ((List.range m).map fun i => (s (i + 1), dt)) ((List.range m).map fun i : Nat => (q (i + 1), D / ((N : ℚ) - 1) / (k : ℚ))) := by
    rw [List.forall₂_map_left_iff, List.forall₂_map_right_iff, List.forall₂_same]
    intro i _
    exact ⟨(hsq (i + 1)).1, by rw [hdtq]; exact hdt, b, hle, hdtq⟩
  obtain ⟨st, hw, ht⟩ := C124_exact N hN hN' delay (s 0) D (q 0) hD (hsq 0).1 e he (k * b) hkb hW hW3 _ _ fa
  have ex := C72_exact_delay (K := ℚ) N k hN hk D hD0 q m hm
  have hM0 : 0 ≤ M := (abs_nonneg _).trans (hsq 0).2
  have bound : ∀ i, |((Delayer.new N D (q 0)).addAll N ((List.range m).map fun i : Nat => (q (i + 1), D / ((N : ℚ) - 1) / (k : ℚ)))).data i| ≤ M := by
    have gen : ∀ (l : List (ℚ × ℚ)) (d : Delayer ℚ), (∀ i, |d.data i| ≤ M) → (∀ x ∈ l, |x.1| ≤ M) → ∀ i, |(d.addAll N l).data i| ≤ M := by
      intro l
      induction l with
      | nil => intro d h _; exact h
      | cons x l ih =>
        intro d h hl
        refine ih _ ?_ (fun y hy => hl y (List.mem_cons_of_mem _ hy))
        intro i
        unfold Delayer.addSample
        dsimp only
        split
        · dsimp only
          split
          · exact hl x List.mem_cons_self
          · exact h i
        · exact h i
    refine gen _ _ ?_ ?_
    · intro i
      show |if i = 0 then q 0 else 0| ≤ M
      split
      · exact (hsq 0).2
      · simpa using hM0
    · intro x hx
      obtain ⟨i, _, rfl⟩ := List.mem_map.1 hx
      exact (hsq (i + 1)).2
  generalize (Delayer.new N D (q 0)).addAll N ((List.range m).map fun i : Nat => (q (i + 1), D / ((N : ℚ) - 1) / (k : ℚ))) = E at *
  generalize delayerAll N (delayerNew N delay (s 0)) ((List.range m).map fun i => (s (i + 1), dt)) = F at *
  obtain ⟨v, hv, ev⟩ := C124_value N F E.window E.time (E.data ((E.idx + N + 2) % N)) (E.data ((E.idx + N + 1) % N)) M st.window st.time
    (by rw [hw]; exact hW0) (by rw [hw]; exact ht) (by rw [← st.idx]; exact st.data _) (by rw [← st.idx]; exact st.data _) (bound _) (bound _) hM
  refine ⟨v, hv, ?_⟩
  have : E.time / E.window * E.data ((E.idx + N + 2) % N) + (1 - E.time / E.window) * E.data ((E.idx + N + 1) % N) = E.delayedValue N := rfl
  rw [this, ex] at ev
  exact ev

/-! ## Steps that are lost -/

/-- C124. Steps that are small enough are lost: after one step of half of the delay, no number of steps of 2^-26 moves the clock, so the output stays
what it was however much time has passed and whatever the samples are. -/
theorem C124_stuck_refuted (v0 : Flt) (vs : List Flt) :
    let d := delayerAdd 2 (delayerNew 2 (.fin false 1) (.fin false 0)) v0 (.fin false (1 / 2))
    delayerAll 2 d (vs.map fun v => (v, .fin false (1 / 2 ^ 26))) = d := by
  intro d
  have hd : d = ⟨.fin false 1, .fin false (1 / 2), 0, fun i => if i = 0 then .fin false 0 else .fin false 0⟩ := by
    have c1 : Fmt.single.div (.fin false 1) (Fmt.single.ofRat ((2 - 1 : Nat) : ℚ)) = .fin false 1 := by decide +kernel
    have c2 : Fmt.single.add (.fin false 0) (.fin false (1 / 2)) = .fin false (1 / 2) := by decide +kernel
    have c3 : Flt.lt (.fin false 1) (Fmt.single.add (.fin false (1 / 2)) (Fmt.single.mul (.fin false (1 / 2)) (.fin false (1 / 2)))) = false := by
      decide +kernel
    show delayerAdd 2 (delayerNew 2 (.fin false 1) (.fin false 0)) v0 (.fin false (1 / 2)) = _
    unfold delayerAdd delayerNew
    dsimp only
    rw [c1, c2, c3]
    rfl
  have step : ∀ v, delayerAdd 2 d v (.fin false (1 / 2 ^ 26)) = d := by
    intro v
    rw [hd]
    have c2 : Fmt.single.add (.fin false (1 / 2)) (.fin false (1 / 2 ^ 26)) = .fin false (1 / 2) := by decide +kernel
    have c3 : Flt.lt (.fin false 1) (Fmt.single.add (.fin false (1 / 2)) (Fmt.single.mul (.fin false (1 / 2)) (.fin false (1 / 2 ^ 26)))) = false := by
      decide +kernel
    unfold delayerAdd
    dsimp only
    rw [c2, c3]
    rfl
  induction vs with
  | nil => rfl
  | cons v vs ih =>
    show delayerAll 2 (delayerAdd 2 d v _) _ = d
    rw [step]
    exact ih

/-! ## Examples -/

/-- A number that is a small multiple of a power of two. -/
private theorem stands_small (m : Nat) (e : Int) (hm : m < 2 ^ 24) (he : -149 ≤ e) (he' : e ≤ 0) : Stands .single (.fin false (m * 2 ^ e)) (m * 2 ^ e) := by
  refine ⟨⟨by positivity, ?_, m, e, by rw [abs_of_nonneg (by omega)]; show (m : Int) < 2 ^ 24; omega, he, by push_cast; rfl⟩, rfl⟩
  have h1 : (2 : ℚ) ^ e ≤ 1 := zpow_le_one_of_nonpos₀ (by norm_num) he'
  have h2 : (m : ℚ) ≤ 2 ^ 24 := by exact_mod_cast hm.le
  have h3 := mul_le_mul h2 h1 (by positivity) (by norm_num)
  linarith [(fmt_consts hs).2.2.2, (by norm_num : (2 : ℚ) ^ 24 ≤ 2 ^ 100)]

-- a delayer of one second with three places, given samples every quarter of a second
example (m : Nat) (hm : 4 ≤ m) : ∃ v, Stands .single (delayerValue 3 (delayerAll 3 (delayerNew 3 (.fin false (4 * 2 ^ (-2 : Int))) (.fin false (0 * 2 ^ (0 : Int))))
    ((List.range m).map fun i => (.fin false (((i + 1 : Nat) % 7 : Nat) * 2 ^ (0 : Int)), .fin false (1 * 2 ^ (-2 : Int)))))) v ∧
      |v - ((1 - (((m - 2 * 2) % 2 : Nat) : ℚ) / 2) * ((((m - 2 * 2) / 2 * 2) % 7 : Nat) * 2 ^ (0 : Int)) +
        (((m - 2 * 2) % 2 : Nat) : ℚ) / 2 * (((((m - 2 * 2) / 2 + 1) * 2) % 7 : Nat) * 2 ^ (0 : Int)))| ≤ 11 * 7 / 2 ^ 24 + 2 * 2 ^ (-149 : Int) := by
  have := C124_delay 3 2 (by decide) (by decide) (by decide) (.fin false (4 * 2 ^ (-2 : Int))) (.fin false (1 * 2 ^ (-2 : Int))) (4 * 2 ^ (-2 : Int))
    (by exact_mod_cast stands_small 4 (-2) (by decide) (by decide) (by decide)) (-2) (by decide) 1 (by decide) (by decide)
    (by exact_mod_cast stands_small 1 (-2) (by decide) (by decide) (by decide)) (by norm_num)
    (by push_cast; linarith [(fmt_consts hs).2.2.2, (by norm_num : (3 : ℚ) * (2 * (1 * 2 ^ (-2 : Int))) ≤ 2 ^ 100)])
    (fun i => .fin false ((i % 7 : Nat) * 2 ^ (0 : Int))) (fun i => (i % 7 : Nat) * 2 ^ (0 : Int)) 7
    (fun i => ⟨stands_small (i % 7) 0 (by omega) (by decide) (by decide), by
      rw [zpow_zero, mul_one, abs_of_nonneg (by positivity)]
      exact_mod_cast (show i % 7 ≤ 7 by omega)⟩)
    (by linarith [(fmt_consts hs).2.2.2, (by norm_num : (4 : ℚ) * 7 ≤ 2 ^ 100)]) m hm
  simpa using this

-- steps of a tenth of a second are not exact, but the clock is right to 2^-23 for every step
example (n : Nat) (v : Flt) : ∃ (T : ℚ) (k : Nat),
    Stands .single (delayerAll 2 (delayerNew 2 (.fin false 1) (.fin false 0)) (List.replicate n (v, .fin false (13421773 * 2 ^ (-27 : Int))))).time T ∧
      |(k + T) - n * (13421773 * 2 ^ (-27 : Int))| ≤ n * (2 / 2 ^ 24) := by
  have c1 : (delayerNew 2 (.fin false 1) (.fin false 0)).window = .fin false 1 := by decide +kernel
  obtain ⟨T, k, h1, _, _, _, h2⟩ := C124_clock 2 (delayerNew 2 (.fin false 1) (.fin false 0)) 1 (by rw [c1]; exact one_stands hs) (zero_stands .single hs false)
    (by decide) (by linarith [(fmt_consts hs).2.2.2, (by norm_num : (3 : ℚ) * 1 ≤ 2 ^ 100)]) (by norm_num)
    (List.replicate n (v, .fin false (13421773 * 2 ^ (-27 : Int)))) (List.replicate n (13421773 * 2 ^ (-27 : Int))) (by
      have h : Stands .single (.fin false (13421773 * 2 ^ (-27 : Int))) (13421773 * 2 ^ (-27 : Int)) := by
        exact_mod_cast stands_small 13421773 (-27) (by decide) (by decide) (by decide)
      induction n with
      | zero => exact .nil
      | succ n ih => exact .cons ⟨h, by positivity, by norm_num⟩ ih)
  refine ⟨T, k, h1, ?_⟩
  rw [List.sum_replicate, List.length_replicate, nsmul_eq_mul, mul_one, mul_one] at h2
  exact h2

end Flut
