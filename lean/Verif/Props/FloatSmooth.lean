import Verif.Spec.FloatSmooth
import Verif.Proofs.FloatSmooth
import Verif.Props.FloatMean

/-! # Property theorems: smooth delayers in floating-point arithmetic (C162) -/

namespace Flut

open Spec FloatMath

private theorem hs : Fmt.single = .double ∨ Fmt.single = .single := Or.inr rfl

/-- A window is at least the smallest number. -/
theorem window_min {x : Flt} {W : ℚ} (h : Stands .single x W) (hW : 0 < W) : (2 : ℚ) ^ (-149 : Int) ≤ W := by
  obtain ⟨z, hz⟩ := binary_mul h.binary
  rw [show Fmt.single.emin = -149 from rfl] at hz
  have h2 : (0 : ℚ) < 2 ^ (-149 : Int) := by positivity
  have h1 : 0 < z := by
    by_contra hc
    have : (z : ℚ) ≤ 0 := by exact_mod_cast not_lt.1 hc
    have := mul_nonpos_of_nonpos_of_nonneg this h2.le
    linarith
  have : (1 : ℚ) ≤ z := by exact_mod_cast h1
  have := mul_le_mul_of_nonneg_right this h2.le
  linarith

/-- The sum that is kept is near the exact one. -/
def InterNear (M m : ℚ) (d : SmoothDelayer Flt) (e : SmoothDelayer ℚ) : Prop :=
  ∃ a, Stands .single d.inter a ∧ |a - e.inter| ≤ smoothUnit M e.window (2 ^ (-149 : Int)) * (1 + m * e.time / e.window) ∧ |e.inter| ≤ M * e.time

theorem averageError_eq {M m W : ℚ} (hW : 0 < W) :
    (m + 3) * (smoothUnit M W (2 ^ (-149 : Int)) / W) + 2 ^ (-149 : Int) = averageError M m W := by
  unfold averageError smoothUnit
  rw [add_div, show 6 * (M * W) / 2 ^ 24 / W = 6 * M / 2 ^ 24 by field_simp]

theorem smooth_step (N : Nat) (M m : ℚ) (d : SmoothDelayer Flt) (e : SmoothDelayer ℚ) (v dt : Flt) (x q : ℚ) (hf : SmoothFits M m e.window)
    (h : SmoothNear M m d e) (hi : InterNear M m d e) (hq : SampleStands M m e.window (v, dt) (x, q)) :
    ∃ δ : ℚ, 0 ≤ δ ∧ |δ - q| ≤ 2 * e.window / 2 ^ 24 ∧ SmoothNear M m (smoothAdd N d v dt) (e.addSample N x δ) ∧
      InterNear M m (smoothAdd N d v dt) (e.addSample N x δ) ∧ (e.addSample N x δ).window = e.window := by
  have hp := prec_pos hs
  obtain ⟨k1, k2, k3, k4⟩ := fmt_consts hs
  obtain ⟨W, T, I, ix, D⟩ := e
  obtain ⟨hW, hT, ⟨T0, T1⟩, hix, hD⟩ := h
  obtain ⟨a, ha, ea, hI⟩ := hi
  obtain ⟨hx, hqs, hM, q0, q1, hqm⟩ := hq
  obtain ⟨W0, M0, m0, m1, mW, mM, mMW⟩ := hf
  dsimp only at *
  have er := fun q : ℚ => srnd_err (f := .single) q
  have em := fun (q : ℚ) (h : ∃ n : Int, q = n * 2 ^ Fmt.single.emin) => srnd_rel (f := .single) hp (q := q) h
  rw [show Fmt.single.prec = 24 from rfl] at er em
  have nW := window_min hW W0
  have n24 : (2 : ℚ) ^ Fmt.single.emin = 2 ^ (-149 : Int) := rfl
  rw [n24] at k2 k3 er
  have av := averageError_eq (M := M) (m := m) W0
  -- limits
  have hu : smoothUnit M W (2 ^ (-149 : Int)) = 6 * (M * W) / 2 ^ 24 + 2 ^ (-149 : Int) := rfl
  have hMW0 : 0 ≤ M * W := by positivity
  have big : (2 : ℚ) ^ 30 ≤ 2 ^ 100 / 100 := by norm_num
  have tiny : (2 : ℚ) ^ (-149 : Int) ≤ 1 / 2 ^ 60 := k3.trans (by norm_num)
  have lim1 : 3 * (M * W) + 1 / 1000 * smoothUnit M W (2 ^ (-149 : Int)) * 2 ^ 24 + 2 ^ (-149 : Int) ≤ Fmt.single.maxVal := by
    rw [hu]; linarith
  have lim2 : M + (m + 2) * (smoothUnit M W (2 ^ (-149 : Int)) / W) ≤ Fmt.single.maxVal := by
    rw [hu, add_div, show 6 * (M * W) / 2 ^ 24 / W = 6 * M / 2 ^ 24 by field_simp]
    have h1 : (2 : ℚ) ^ (-149 : Int) / W ≤ 1 := by rw [div_le_one W0]; exact nW
    have h2 : (m + 2) * (6 * M / 2 ^ 24 + 2 ^ (-149 : Int) / W) ≤ (m + 2) * (6 * M / 2 ^ 24 + 1) :=
      mul_le_mul_of_nonneg_left (by linarith) (by linarith)
    have h3 : (m + 1) * 1000 * M ≤ 2 ^ 24 * M := mul_le_mul_of_nonneg_right m1 M0
    have h4 : (m + 2) * (6 * M / 2 ^ 24 + 1) = 6 * (m * M) / 2 ^ 24 + 12 * M / 2 ^ 24 + m + 2 := by ring
    rw [h4] at h2
    linarith
  -- the clock
  have A := add_stands hs hT hqs (by rw [abs_le]; constructor <;> linarith)
  have eA : |Fmt.single.srnd (T + q) - (T + q)| ≤ 2 * W / 2 ^ 24 := by
    refine (em (T + q) (multiple_add (binary_mul hT.binary) (binary_mul hqs.binary))).trans ?_
    apply div_le_div_of_nonneg_right _ (by norm_num)
    rw [abs_le]; constructor <;> linarith
  have two : IsBinary Fmt.single.prec Fmt.single.emin (2 * W) := by
    obtain ⟨m, e, hm, he, rfl⟩ := hW.binary
    refine ⟨m, e + 1, hm, he.trans (by omega), ?_⟩
    rw [zpow_add₀ (by norm_num)]; ring
  have hA3 : T ≤ Fmt.single.srnd (T + q) := Fmt.le_srnd hp hT.binary (by linarith)
  have hA2 : Fmt.single.srnd (T + q) ≤ 2 * W := Fmt.srnd_le hp two (by linarith)
  generalize Fmt.single.srnd (T + q) = t at A eA hA2 hA3
  have hle := le_stands hW A
  refine ⟨t - T, by linarith, by rw [show t - T - q = t - (T + q) by ring]; exact eA, ?_⟩
  have hTt : T + (t - T) = t := by ring
  unfold smoothAdd SmoothDelayer.addSample
  dsimp only
  rw [hTt]
  by_cases hc : W ≤ t
  · rw [if_pos (hle.2 hc), if_pos hc]
    have b1 := sub_near_binary hW.binary A.binary (by linarith) (by linarith)
    have b2 := sub_near_binary A.binary hW.binary (by linarith) hA2
    have S1 := sub_stands hs hW A (by rw [abs_le]; constructor <;> linarith)
    have S2 := sub_stands hs A hW (by rw [abs_le]; constructor <;> linarith)
    rw [Fmt.srnd_self hp b1] at S1
    rw [Fmt.srnd_self hp b2] at S2
    have G := add_stands hs S1 hqs (by rw [abs_le]; constructor <;> linarith)
    have eG := em (W - t + q) (multiple_add (binary_mul b1) (binary_mul hqs.binary))
    have eS := er (Fmt.single.srnd (W - t + q) * x)
    have bb := fun s (hs' : IsBinary Fmt.single.prec Fmt.single.emin s) =>
      em (a + s) (multiple_add (binary_mul ha.binary) (binary_mul hs'))
    generalize Fmt.single.srnd (W - t + q) = g at G eG eS
    obtain ⟨_, _, _, lg, _, _⟩ := average_near W M m _ T q t x a I g (Fmt.single.srnd (g * x)) (a + Fmt.single.srnd (g * x)) ((a + Fmt.single.srnd (g * x)) / W) W0 M0 m0 m1 k2 T0 T1 hM hI ea eA eG eS
      (by rw [sub_self, abs_zero]; positivity) (by rw [sub_self, abs_zero]; positivity)
    have P := mul_stands hs G hx (by linarith)
    have eB := bb _ P.binary
    generalize Fmt.single.srnd (g * x) = s at P eS eB
    have eR := er (Fmt.single.srnd (a + s) / W)
    obtain ⟨r1, r2, _, _, r5, r6⟩ := average_near W M m _ T q t x a I g s _ _ W0 M0 m0 m1 k2 T0 T1 hM hI ea eA eG eS eB eR
    have Sm := add_stands hs ha P (r5.trans lim1)
    have R := div_stands hs Sm hW W0.ne' (r6.trans lim2)
    have tx : |(t - W) * x| ≤ M * (t - W) := by
      rw [abs_mul, abs_of_nonneg (by linarith), mul_comm]; exact mul_le_mul_of_nonneg_right hM (by linarith)
    have tW : M * (t - W) ≤ M * W := mul_le_mul_of_nonneg_left (by linarith) M0
    have Q := mul_stands hs S2 hx (by linarith)
    have eQ := er ((t - W) * x)
    have eW : W - t + (t - T) = W - T := by ring
    rw [eW, hix]
    refine ⟨⟨hW, S2, ⟨by dsimp only; linarith, by dsimp only; linarith⟩, rfl, ?_⟩, ⟨_, Q, ?_, tx⟩, rfl⟩
    · intro i
      dsimp only
      split
      · exact ⟨_, R, by rw [← av]; exact r2, r1⟩
      · exact hD i
    · dsimp only
      have h1 : 0 ≤ m * (t - W) / W := div_nonneg (mul_nonneg m0 (by linarith)) W0.le
      have h2 := mul_le_mul_of_nonneg_left (show (1 : ℚ) ≤ 1 + m * (t - W) / W by linarith) (smoothUnit_pos M0 W0 k2).le
      have h3 : |(t - W) * x| / 2 ^ 24 ≤ M * W / 2 ^ 24 := div_le_div_of_nonneg_right (tx.trans tW) (by norm_num)
      rw [mul_one] at h2
      have : |(t - W) * x| / 2 ^ 24 + 2 ^ (-149 : Int) / 2 ≤ smoothUnit M W (2 ^ (-149 : Int)) := by rw [hu]; linarith
      linarith
  · rw [if_neg (fun hh => hc (hle.1 hh)), if_neg hc]
    have vq : |x * q| ≤ M * W := by rw [abs_mul, abs_of_nonneg q0]; exact mul_le_mul hM q1 q0 M0
    have P := mul_stands hs hx hqs (by linarith)
    have eS := er (x * q)
    have eB := em (a + Fmt.single.srnd (x * q)) (multiple_add (binary_mul ha.binary) (binary_mul P.binary))
    obtain ⟨r1, r2⟩ := inter_near W M m _ T q t x a I _ _ W0 M0 m0 m1 k2 T0 T1 q0 q1 hqm hM hI ea eA eS eB
    have Sm := add_stands hs ha P (r2.trans lim1)
    refine ⟨⟨hW, A, ⟨by dsimp only; linarith, (not_le.1 hc).le⟩, hix, hD⟩, ⟨_, Sm, r1, ?_⟩, rfl⟩
    dsimp only
    have h1 := abs_add_le I (x * (t - T))
    have h2 : |x * (t - T)| ≤ M * (t - T) := by
      rw [abs_mul, abs_of_nonneg (show 0 ≤ t - T by linarith)]; exact mul_le_mul_of_nonneg_right hM (by linarith)
    linarith

theorem smooth_all (N : Nat) (M m : ℚ) (ss : List (Flt × Flt)) (qs : List (ℚ × ℚ)) (d : SmoothDelayer Flt) (e : SmoothDelayer ℚ)
    (hf : SmoothFits M m e.window) (h : SmoothNear M m d e) (hi : InterNear M m d e) (hq : List.Forall₂ (SampleStands M m e.window) ss qs) :
    ∃ ps, List.Forall₂ (StepNear e.window) ps qs ∧ SmoothNear M m (smoothAll N d ss) (e.addAll N ps) ∧ (e.addAll N ps).window = e.window := by
  induction ss generalizing qs d e with
  | nil => cases hq; exact ⟨[], .nil, h, rfl⟩
  | cons s ss ih =>
    obtain _ | ⟨a1, hq'⟩ := hq
    rename_i q qs
    obtain ⟨δ, b0, b1, b2, b3, b4⟩ := smooth_step N M m d e s.1 s.2 q.1 q.2 hf h hi a1
    obtain ⟨ps, c1, c2, c3⟩ := ih qs (smoothAdd N d s.1 s.2) (e.addSample N q.1 δ) (by rw [b4]; exact hf) b2 b3 (by rw [b4]; exact hq')
    rw [b4] at c1 c3
    exact ⟨(q.1, δ) :: ps, .cons ⟨rfl, b0, b1⟩ c1, c2, c3⟩

/-- The state a smooth delayer starts from. -/
theorem smooth_new (N : Nat) (hN : 1 ≤ N) (hN' : N ≤ 2 ^ 23) (delay init : Flt) (D I M m : ℚ) (hD : Stands .single delay D) (hI : Stands .single init I)
    (hIM : |I| ≤ M) (hf : SmoothFits M m (Fmt.single.srnd (D / (N - 1 / 2)))) :
    SmoothNear M m (smoothNew N delay init) (SmoothDelayer.new N (Fmt.single.srnd (D / (N - 1 / 2)) * (N - 1 / 2)) I) ∧
      InterNear M m (smoothNew N delay init) (SmoothDelayer.new N (Fmt.single.srnd (D / (N - 1 / 2)) * (N - 1 / 2)) I) ∧
      (SmoothDelayer.new N (Fmt.single.srnd (D / (N - 1 / 2)) * (N - 1 / 2)) I).window = Fmt.single.srnd (D / (N - 1 / 2)) := by
  have hp := prec_pos hs
  have hNq : (1 : ℚ) ≤ N := by exact_mod_cast hN
  have hNq' : (N : ℚ) ≤ 2 ^ 23 := by exact_mod_cast hN'
  have hN0 : (0 : ℚ) < N - 1 / 2 := by linarith
  have big := (fmt_consts hs).2.2.2
  have n1 := nat_stands hs (n := N) (by show N < 2 ^ 24; omega)
  have half : Stands .single (.fin false (1 / 2)) (1 / 2) := ⟨⟨by norm_num, by decide +kernel, 1, -1, by decide, by decide, by norm_num⟩, rfl⟩
  have s1 := sub_stands hs n1 half (by rw [abs_of_nonneg (by linarith)]; linarith [(by norm_num : (2 : ℚ) ^ 23 ≤ 2 ^ 100)])
  have hb : IsBinary Fmt.single.prec Fmt.single.emin ((N : ℚ) - 1 / 2) := by
    refine ⟨2 * (N : Int) - 1, -1, ?_, by decide, ?_⟩
    · show |2 * (N : Int) - 1| < 2 ^ 24
      rw [abs_of_nonneg (by omega)]
      have : (N : Int) ≤ 2 ^ 23 := by exact_mod_cast hN'
      omega
    · push_cast
      rw [zpow_neg_one]
      ring
  rw [Fmt.srnd_self hp hb] at s1
  -- a smaller number than the largest one, divided by a half or more
  have hWm := hf.windowMax
  have hle : |D / (N - 1 / 2)| ≤ Fmt.single.maxVal := by
    by_cases h1 : N = 1
    · subst h1
      by_contra hc
      have hD2 : D / ((1 : Nat) - 1 / 2 : ℚ) = 2 * D := by push_cast; ring
      rw [hD2] at hc hf hWm
      obtain ⟨z, e, hz, he, hD'⟩ := hD.binary
      have hb2 : IsBinary Fmt.single.prec Fmt.single.emin (2 * D) := by
        refine ⟨z, e + 1, hz, he.trans (by omega), ?_⟩
        rw [hD', zpow_add₀ (by norm_num)]; ring
      rw [Fmt.srnd_self hp hb2] at hWm hf
      have := hf.window
      rw [abs_of_pos this] at hc
      linarith
    · have h2 : (2 : ℚ) ≤ N := by exact_mod_cast (show 2 ≤ N by omega)
      rw [abs_div, abs_of_pos hN0, div_le_iff₀ hN0]
      have := hD.abs_le
      have h3 := mul_le_mul_of_nonneg_left (show (1 : ℚ) ≤ N - 1 / 2 by linarith) (show 0 ≤ Fmt.single.maxVal by linarith [(by norm_num : (0 : ℚ) ≤ 2 ^ 100)])
      linarith
  have w := div_stands hs hD s1 hN0.ne' hle
  generalize Fmt.single.srnd (D / (N - 1 / 2)) = W at *
  have hW := hf.window
  have ew : (SmoothDelayer.new N (W * (N - 1 / 2)) I).window = W := by
    show W * (N - 1 / 2) / ((N : ℚ) - 0.5) = W
    rw [show (0.5 : ℚ) = 1 / 2 by norm_num, mul_div_cancel_right₀ _ hN0.ne']
  have z := zero_stands .single hs false
  have hn : (0 : ℚ) < 2 ^ (-149 : Int) := by positivity
  have hm := hf.part
  have hM := hf.bound
  have av : 0 ≤ averageError M m W := by unfold averageError; positivity
  refine ⟨⟨by rw [ew]; exact w, z, ⟨le_refl _, by rw [ew]; exact hW.le⟩, rfl, ?_⟩, ⟨0, z, ?_, ?_⟩, ew⟩
  · intro i
    rw [ew]
    show ∃ a, Stands .single (if i = 0 then init else .fin false 0) a ∧ |a - (if i = 0 then I else 0)| ≤ averageError M m W ∧ |if i = 0 then I else 0| ≤ M
    split
    · exact ⟨I, hI, by simpa using av, hIM⟩
    · exact ⟨0, z, by simpa using av, by simpa using hM⟩
  · rw [ew]
    show |(0 : ℚ) - 0| ≤ smoothUnit M W _ * (1 + m * 0 / W)
    rw [sub_self, abs_zero, mul_zero, zero_div, add_zero, mul_one]
    exact (smoothUnit_pos hM hW hn).le
  · show |(0 : ℚ)| ≤ M * 0
    simp

/-- The value of a smooth delayer that is near an exact one. -/
theorem smooth_value (N : Nat) (M m : ℚ) (d : SmoothDelayer Flt) (e : SmoothDelayer ℚ) (hf : SmoothFits M m e.window) (h : SmoothNear M m d e) :
    ∃ y, Stands .single (smoothValue N d) y ∧ |y - e.delayedValue N| ≤ outputError M m e.window := by
  obtain ⟨k1, k2, k3, k4⟩ := fmt_consts hs
  obtain ⟨a, ha, ea, ma⟩ := h.data ((e.idx + N + 2) % N)
  obtain ⟨b, hb, eb, mb⟩ := h.data ((e.idx + N + 1) % N)
  have W0 := hf.window
  have hm := hf.part
  have hM := hf.bound
  have nW := window_min h.window W0
  have hn : (0 : ℚ) < 2 ^ (-149 : Int) := by positivity
  have tiny : (2 : ℚ) ^ (-149 : Int) ≤ 1 := k3.trans (by norm_num)
  have lim : averageError M m e.window ≤ M / 10 + 2 ^ 20 := by
    unfold averageError
    have h1 : (2 : ℚ) ^ (-149 : Int) / e.window ≤ 1 := by rw [div_le_one W0]; exact nW
    have h2 : (m + 3) * (6 * M / 2 ^ 24 + 2 ^ (-149 : Int) / e.window) ≤ (m + 3) * (6 * M / 2 ^ 24 + 1) :=
      mul_le_mul_of_nonneg_left (by linarith) (by linarith)
    have h3 : (m + 1) * 1000 * M ≤ 2 ^ 24 * M := mul_le_mul_of_nonneg_right hf.parts hM
    have h4 : (m + 3) * (6 * M / 2 ^ 24 + 1) = 6 * (m * M) / 2 ^ 24 + 18 * M / 2 ^ 24 + m + 3 := by ring
    rw [h4] at h2
    have := hf.parts
    linarith
  have av : 0 ≤ averageError M m e.window := by unfold averageError; positivity
  have la : |a| ≤ M + averageError M m e.window := by
    have := abs_sub_le a (e.data ((e.idx + N + 2) % N)) 0
    rw [sub_zero, sub_zero] at this
    linarith
  have lb : |b| ≤ M + averageError M m e.window := by
    have := abs_sub_le b (e.data ((e.idx + N + 1) % N)) 0
    rw [sub_zero, sub_zero] at this
    linarith
  obtain ⟨y, hy, ey⟩ := C124_value N ⟨d.window, d.time, d.idx, d.data⟩ e.window e.time a b (M + averageError M m e.window) h.window h.time W0
    (by rw [abs_of_nonneg h.inside.1]; exact h.inside.2) (by dsimp only; rw [h.idx]; exact ha) (by dsimp only; rw [h.idx]; exact hb) la lb
    (by linarith [hf.boundMax, (by norm_num : (2 : ℚ) ^ 22 ≤ 2 ^ 100 / 1000)])
  refine ⟨y, hy, ?_⟩
  unfold SmoothDelayer.delayedValue outputError
  dsimp only
  have w0 : 0 ≤ e.time / e.window := div_nonneg h.inside.1 W0.le
  have w1 : e.time / e.window ≤ 1 := by rw [div_le_one W0]; exact h.inside.2
  generalize e.time / e.window = w at *
  generalize averageError M m e.window = E at *
  generalize e.data ((e.idx + N + 2) % N) = A at *
  generalize e.data ((e.idx + N + 1) % N) = B at *
  have t := abs_sub_le y (w * a + (1 - w) * b) (w * A + (1 - w) * B)
  have c : |w * a + (1 - w) * b - (w * A + (1 - w) * B)| ≤ E := by
    rw [show w * a + (1 - w) * b - (w * A + (1 - w) * B) = w * (a - A) + (1 - w) * (b - B) by ring]
    have h1 : |w * (a - A)| ≤ w * E := by rw [abs_mul, abs_of_nonneg w0]; exact mul_le_mul_of_nonneg_left ea w0
    have h2 : |(1 - w) * (b - B)| ≤ (1 - w) * E := by
      rw [abs_mul, abs_of_nonneg (show 0 ≤ 1 - w by linarith)]; exact mul_le_mul_of_nonneg_left eb (by linarith)
    linarith [abs_add_le (w * (a - A)) ((1 - w) * (b - B))]
  linarith

/-- C162. After any number of samples, the output of a smooth delayer in single precision is near the output of an exact smooth delayer with nearly the
same delay, given the same samples with steps that are off by two units of the window at most. -/
theorem C162_backward (N : Nat) (hN : 1 ≤ N) (hN' : N ≤ 2 ^ 23) (delay init : Flt) (D I M m W : ℚ) (hD : Stands .single delay D)
    (hI : Stands .single init I) (hIM : |I| ≤ M) (hW : W = Fmt.single.srnd (D / (N - 1 / 2))) (hf : SmoothFits M m W) (ss : List (Flt × Flt))
    (qs : List (ℚ × ℚ)) (hq : List.Forall₂ (SampleStands M m W) ss qs) :
    ∃ (D' : ℚ) (ps : List (ℚ × ℚ)), |D' - D| ≤ |D| / 2 ^ 24 + N * 2 ^ (-150 : Int) ∧ D' / (N - 1 / 2) = W ∧ List.Forall₂ (StepNear W) ps qs ∧
      SmoothNear M m (smoothAll N (smoothNew N delay init) ss) ((SmoothDelayer.new N D' I).addAll N ps) ∧
      ∃ y, Stands .single (smoothValue N (smoothAll N (smoothNew N delay init) ss)) y ∧
        |y - ((SmoothDelayer.new N D' I).addAll N ps).delayedValue N| ≤ outputError M m W := by
  have hNq : (1 : ℚ) ≤ N := by exact_mod_cast hN
  have hN0 : (0 : ℚ) < N - 1 / 2 := by linarith
  subst hW
  obtain ⟨a1, a2, a3⟩ := smooth_new N hN hN' delay init D I M m hD hI hIM hf
  obtain ⟨ps, b1, b2, b3⟩ := smooth_all N M m ss qs _ _ (by rw [a3]; exact hf) a1 a2 (by rw [a3]; exact hq)
  rw [a3] at b1 b3
  obtain ⟨y, c1, c2⟩ := smooth_value N M m _ _ (by rw [b3]; exact hf) b2
  rw [b3] at c2
  refine ⟨_, ps, ?_, mul_div_cancel_right₀ _ hN0.ne', b1, b2, y, c1, c2⟩
  have e := srnd_err (f := .single) (D / (N - 1 / 2))
  rw [show Fmt.single.prec = 24 from rfl, show Fmt.single.emin = -149 from rfl, abs_div, abs_of_pos hN0] at e
  generalize Fmt.single.srnd (D / (N - 1 / 2)) = W at *
  have h1 : W * (N - 1 / 2) - D = (W - D / (N - 1 / 2)) * (N - 1 / 2) := by rw [sub_mul, div_mul_cancel₀ _ hN0.ne']
  rw [h1, abs_mul, abs_of_pos hN0]
  refine (mul_le_mul_of_nonneg_right e hN0.le).trans ?_
  have h2 : (|D| / (N - 1 / 2) / 2 ^ 24 + 2 ^ (-149 : Int) / 2) * ((N : ℚ) - 1 / 2) = |D| / 2 ^ 24 + (N - 1 / 2) * (2 ^ (-149 : Int) / 2) := by
    rw [add_mul, div_right_comm, div_mul_cancel₀ _ hN0.ne', mul_comm (2 ^ (-149 : Int) / 2 : ℚ)]
  rw [h2, show (2 : ℚ) ^ (-150 : Int) = 2 ^ (-149 : Int) / 2 by norm_num]
  have : (0 : ℚ) < 2 ^ (-149 : Int) / 2 := by positivity
  linarith

/-- The time that has passed, in windows and in the current window. -/
theorem smooth_clock (N : Nat) (l : List (ℚ × ℚ)) (e : SmoothDelayer ℚ) :
    (e.addAll N l).time = e.time + (l.map Prod.snd).sum - (SmoothDelayer.stores N e l : ℚ) * e.window := by
  induction l generalizing e with
  | nil => simp [SmoothDelayer.addAll, SmoothDelayer.stores]
  | cons s l ih =>
    have e1 : e.addAll N (s :: l) = (e.addSample N s.1 s.2).addAll N l := rfl
    rw [e1, ih, SmoothDelayer.addSample_window, SmoothDelayer.stores, List.map_cons, List.sum_cons]
    have e2 : (e.addSample N s.1 s.2).time = e.time + s.2 - (if e.time + s.2 ≥ e.window then 1 else 0 : Nat) * e.window := by
      unfold SmoothDelayer.addSample
      dsimp only
      split
      · dsimp only; push_cast; ring
      · dsimp only; push_cast; ring
    rw [e2]
    push_cast
    ring

theorem steps_sum (W : ℚ) (ps qs : List (ℚ × ℚ)) (h : List.Forall₂ (StepNear W) ps qs) :
    |(ps.map Prod.snd).sum - (qs.map Prod.snd).sum| ≤ qs.length * (2 * W / 2 ^ 24) := by
  induction h with
  | nil => simp
  | @cons p q ps qs h _ ih =>
    rw [List.map_cons, List.map_cons, List.sum_cons, List.sum_cons, List.length_cons]
    have := abs_add_le (p.2 - q.2) ((ps.map Prod.snd).sum - (qs.map Prod.snd).sum)
    rw [show p.2 + (ps.map Prod.snd).sum - (q.2 + (qs.map Prod.snd).sum) = (p.2 - q.2) + ((ps.map Prod.snd).sum - (qs.map Prod.snd).sum) by ring]
    have h2 := h.2.2
    push_cast
    linarith

/-- The place where averages are stored moves on by one for every window. -/
theorem smooth_idx (N : Nat) (hN : 0 < N) (l : List (ℚ × ℚ)) (e : SmoothDelayer ℚ) (he : e.idx < N) :
    (e.addAll N l).idx = (e.idx + SmoothDelayer.stores N e l) % N := by
  induction l generalizing e with
  | nil => simp [SmoothDelayer.addAll, SmoothDelayer.stores, Nat.mod_eq_of_lt he]
  | cons s l ih =>
    have e2 : (e.addSample N s.1 s.2).idx = (e.idx + (if e.time + s.2 ≥ e.window then 1 else 0)) % N := by
      unfold SmoothDelayer.addSample
      dsimp only
      split
      · rfl
      · exact (Nat.mod_eq_of_lt he).symm
    have e1 : e.addAll N (s :: l) = (e.addSample N s.1 s.2).addAll N l := rfl
    rw [e1, ih _ (by rw [e2]; exact Nat.mod_lt _ hN), e2, SmoothDelayer.stores, Nat.mod_add_mod, Nat.add_assoc]

/-- C162. The clock of a smooth delayer: the windows that have passed and the time in the current one add up to the sum of the steps, to two units of the
window for every sample. Each window that passes moves the place where averages are stored on by one. -/
theorem C162_clock (N : Nat) (hN : 1 ≤ N) (hN' : N ≤ 2 ^ 23) (delay init : Flt) (D I M m W : ℚ) (hD : Stands .single delay D)
    (hI : Stands .single init I) (hIM : |I| ≤ M) (hW : W = Fmt.single.srnd (D / (N - 1 / 2))) (hf : SmoothFits M m W) (ss : List (Flt × Flt))
    (qs : List (ℚ × ℚ)) (hq : List.Forall₂ (SampleStands M m W) ss qs) :
    ∃ (T : ℚ) (k : Nat), Stands .single (smoothAll N (smoothNew N delay init) ss).time T ∧ 0 ≤ T ∧ T ≤ W ∧
      (smoothAll N (smoothNew N delay init) ss).idx = k % N ∧ |(k * W + T) - (qs.map Prod.snd).sum| ≤ qs.length * (2 * W / 2 ^ 24) := by
  obtain ⟨D', ps, _, b1, b2, b3, _⟩ := C162_backward N hN hN' delay init D I M m W hD hI hIM hW hf ss qs hq
  have ew : (SmoothDelayer.new N D' I).window = W := by
    rw [← b1, show (1 / 2 : ℚ) = 0.5 by norm_num]; rfl
  have ck := smooth_clock N ps (SmoothDelayer.new N D' I)
  have st := steps_sum W ps qs b2
  rw [ew, show (SmoothDelayer.new N D' I).time = 0 from rfl, zero_add] at ck
  have wa : ((SmoothDelayer.new N D' I).addAll N ps).window = W := by
    rw [← ew]
    clear * -
    generalize SmoothDelayer.new N D' I = e
    induction ps generalizing e with
    | nil => rfl
    | cons p ps ih => exact (ih _).trans (SmoothDelayer.addSample_window N e p.1 p.2)
  refine ⟨_, SmoothDelayer.stores N (SmoothDelayer.new N D' I) ps, b3.time, b3.inside.1, wa ▸ b3.inside.2, ?_, ?_⟩
  · rw [b3.idx, smooth_idx N (by omega) ps _ (by show 0 < N; omega), show (SmoothDelayer.new N D' I).idx = 0 from rfl, Nat.zero_add]
  · rw [ck, add_sub_cancel]
    exact st

/-- C162. A signal that stays the same comes out again: once the steps add up to the time of one window more than the delayer has places, the output is
near the sample, whatever was there before. -/
theorem C162_constant (N : Nat) (hN : 1 ≤ N) (hN' : N ≤ 2 ^ 23) (delay init : Flt) (D I M m W c : ℚ) (hD : Stands .single delay D)
    (hI : Stands .single init I) (hIM : |I| ≤ M) (hW : W = Fmt.single.srnd (D / (N - 1 / 2))) (hf : SmoothFits M m W) (ss : List (Flt × Flt))
    (qs : List (ℚ × ℚ)) (hq : List.Forall₂ (SampleStands M m W) ss qs) (hc : ∀ q ∈ qs, q.1 = c)
    (hsum : (N + 1) * W + qs.length * (2 * W / 2 ^ 24) ≤ (qs.map Prod.snd).sum) :
    ∃ y, Stands .single (smoothValue N (smoothAll N (smoothNew N delay init) ss)) y ∧ |y - c| ≤ outputError M m W := by
  have hNq : (1 : ℚ) ≤ N := by exact_mod_cast hN
  have hN0 : (0 : ℚ) < N - 1 / 2 := by linarith
  obtain ⟨D', ps, _, b1, b2, b3, y, b4, b5⟩ := C162_backward N hN hN' delay init D I M m W hD hI hIM hW hf ss qs hq
  refine ⟨y, b4, ?_⟩
  have W0 := hf.window
  have ew : (SmoothDelayer.new N D' I).window = W := by
    rw [← b1, show (1 / 2 : ℚ) = 0.5 by norm_num]; rfl
  have hps : ∀ p ∈ ps, p.1 = c := by
    clear b3 b5 hsum hq
    induction b2 with
    | nil => intro p hp; cases hp
    | cons h _ ih =>
      intro p hp
      rcases List.mem_cons.1 hp with rfl | hp
      · rw [h.1]; exact hc _ List.mem_cons_self
      · exact ih (fun q hq => hc q (List.mem_cons_of_mem _ hq)) p hp
  have ck := smooth_clock N ps (SmoothDelayer.new N D' I)
  have st := steps_sum W ps qs b2
  rw [ew, show (SmoothDelayer.new N D' I).time = 0 from rfl, zero_add] at ck
  have wa : ((SmoothDelayer.new N D' I).addAll N ps).window = W := by
    rw [← ew]
    clear * -
    generalize SmoothDelayer.new N D' I = e
    induction ps generalizing e with
    | nil => rfl
    | cons p ps ih => exact (ih _).trans (SmoothDelayer.addSample_window N e p.1 p.2)
  have ti := b3.inside.2
  rw [wa, ck] at ti
  have hk : N ≤ SmoothDelayer.stores N (SmoothDelayer.new N D' I) ps := by
    by_contra hlt
    have : (SmoothDelayer.stores N (SmoothDelayer.new N D' I) ps : ℚ) + 1 ≤ N := by exact_mod_cast (not_le.1 hlt)
    have := mul_le_mul_of_nonneg_right this W0.le
    have := (abs_le.1 st).1
    linarith
  have fl := SmoothDelayer.filled_all N c ps hps (SmoothDelayer.new N D' I) 0 (by omega) (by rw [ew]; exact W0.ne')
    ⟨by simp [SmoothDelayer.new], by show 0 < N; omega, fun j hj => by omega⟩
  rw [show min N (0 + SmoothDelayer.stores N (SmoothDelayer.new N D' I) ps) = N by omega] at fl
  rw [SmoothDelayer.filled_value N _ c (by omega) fl] at b5
  exact b5

/-- C162. Steps that are small enough are lost: after one step of half of a window, no number of steps of 2^-26 moves the clock, so the output stays what
it was however much time has passed and whatever the samples are. -/
theorem C162_stuck_refuted (v0 : Flt) (vs : List Flt) :
    let d := smoothAdd 2 (smoothNew 2 (.fin false (3 / 2)) (.fin false 0)) v0 (.fin false (1 / 2))
    let e := smoothAll 2 d (vs.map fun v => (v, .fin false (1 / 2 ^ 26)))
    e.window = .fin false 1 ∧ e.time = .fin false (1 / 2) ∧ e.idx = 0 ∧ smoothValue 2 e = .fin false 0 := by
  intro d e
  have gen : ∀ (vs : List Flt) (d : SmoothDelayer Flt), d.window = .fin false 1 → d.time = .fin false (1 / 2) → d.idx = 0 →
      (∀ i, d.data i = .fin false 0) → let e := smoothAll 2 d (vs.map fun v => (v, .fin false (1 / 2 ^ 26)))
      e.window = .fin false 1 ∧ e.time = .fin false (1 / 2) ∧ e.idx = 0 ∧ ∀ i, e.data i = .fin false 0 := by
    intro vs
    induction vs with
    | nil => intro d h1 h2 h3 h4; exact ⟨h1, h2, h3, h4⟩
    | cons v vs ih =>
      intro d h1 h2 h3 h4
      have c2 : Fmt.single.add (.fin false (1 / 2)) (.fin false (1 / 2 ^ 26)) = .fin false (1 / 2) := by decide +kernel
      have c3 : Flt.le (.fin false 1) (.fin false (1 / 2)) = false := by decide +kernel
      have st : smoothAdd 2 d v (.fin false (1 / 2 ^ 26)) =
          { d with time := .fin false (1 / 2), inter := Fmt.single.add d.inter (Fmt.single.mul v (.fin false (1 / 2 ^ 26))) } := by
        unfold smoothAdd
        dsimp only
        rw [h1, h2, c2, c3]
        rfl
      exact ih (smoothAdd 2 d v (.fin false (1 / 2 ^ 26))) (by rw [st]; exact h1) (by rw [st]) (by rw [st]; exact h3) (by rw [st]; exact h4)
  have c1 : Fmt.single.div (.fin false (3 / 2)) (Fmt.single.sub (Fmt.single.ofRat ((2 : Nat) : ℚ)) (.fin false (1 / 2))) = .fin false 1 := by decide +kernel
  have c2 : Fmt.single.add (.fin false 0) (.fin false (1 / 2)) = .fin false (1 / 2) := by decide +kernel
  have c3 : Flt.le (.fin false 1) (.fin false (1 / 2)) = false := by decide +kernel
  have hd : d = ⟨.fin false 1, .fin false (1 / 2), Fmt.single.add (.fin false 0) (Fmt.single.mul v0 (.fin false (1 / 2))), 0,
      fun i => if i = 0 then .fin false 0 else .fin false 0⟩ := by
    show smoothAdd 2 (smoothNew 2 (.fin false (3 / 2)) (.fin false 0)) v0 (.fin false (1 / 2)) = _
    unfold smoothAdd smoothNew
    dsimp only
    rw [c1, c2, c3]
    rfl
  obtain ⟨g1, g2, g3, g4⟩ := gen vs d (by rw [hd]) (by rw [hd]) (by rw [hd]) (by intro i; rw [hd]; dsimp only; split <;> rfl)
  refine ⟨g1, g2, g3, ?_⟩
  show smoothValue 2 (smoothAll 2 d (vs.map fun v => (v, .fin false (1 / 2 ^ 26)))) = _
  unfold smoothValue
  dsimp only
  rw [g1, g2, g4, g4]
  decide +kernel

/-! ## Examples -/

/-- A number that is a small multiple of a power of two. -/
private theorem stands_small (m : Nat) (e : Int) (hm : m < 2 ^ 24) (he : -149 ≤ e) (he' : e ≤ 0) : Stands .single (.fin false (m * 2 ^ e)) (m * 2 ^ e) := by
  refine ⟨⟨by positivity, ?_, m, e, by rw [abs_of_nonneg (by omega)]; show (m : Int) < 2 ^ 24; omega, he, by push_cast; rfl⟩, rfl⟩
  have h1 : (2 : ℚ) ^ e ≤ 1 := zpow_le_one_of_nonpos₀ (by norm_num) he'
  have h2 : (m : ℚ) ≤ 2 ^ 24 := by exact_mod_cast hm.le
  have h3 := mul_le_mul h2 h1 (by positivity) (by norm_num)
  linarith [(fmt_consts hs).2.2.2, (by norm_num : (2 : ℚ) ^ 24 ≤ 2 ^ 100)]

private theorem fits : SmoothFits 7 10 1 := by
  have := (fmt_consts hs).2.2.2
  refine ⟨by norm_num, by norm_num, by norm_num, by norm_num, ?_, ?_, ?_⟩ <;>
    linarith [(by norm_num : (35 : ℚ) ≤ 2 ^ 100)]

private theorem tenth : Stands .single (.fin false (13421773 * 2 ^ (-27 : Int))) (13421773 * 2 ^ (-27 : Int)) := by
  exact_mod_cast stands_small 13421773 (-27) (by decide) (by decide) (by decide)

-- a window of one second, a step of the number nearest to a tenth, a signal that runs through 0, 1, ..., 6 again and again
example (k : Nat) : ∃ (D' : ℚ) (ps : List (ℚ × ℚ)) (y : ℚ), |D' - 3 / 2| ≤ |3 / 2| / 2 ^ 24 + (2 : Nat) * 2 ^ (-150 : Int) ∧ ps.length = k ∧
    Stands .single (smoothValue 2 (smoothAll 2 (smoothNew 2 (.fin false (3 / 2)) (.fin false 0))
      ((List.range k).map fun i => (.fin false ((i % 7 : Nat) * 2 ^ (0 : Int)), .fin false (13421773 * 2 ^ (-27 : Int)))))) y ∧
      |y - ((SmoothDelayer.new 2 D' 0).addAll 2 ps).delayedValue 2| ≤ 1 / 20000 := by
  have w : (1 : ℚ) = Fmt.single.srnd (3 / 2 / ((2 : Nat) - 1 / 2)) := by
    rw [show (3 / 2 / (((2 : Nat) : ℚ) - 1 / 2)) = 1 by norm_num, Fmt.srnd_self (prec_pos hs) (one_stands hs).binary]
  obtain ⟨D', ps, h1, _, h2, _, y, h3, h4⟩ := C162_backward 2 (by decide) (by decide) (.fin false (3 / 2)) (.fin false 0) (3 / 2) 0 7 10 1
    (by simpa using (show Stands .single (.fin false (3 / 2)) (3 / 2) from
      ⟨⟨by norm_num, by decide +kernel, 3, -1, by decide, by decide, by norm_num⟩, rfl⟩))
    (zero_stands .single hs false) (by norm_num) w fits
    ((List.range k).map fun i => (.fin false ((i % 7 : Nat) * 2 ^ (0 : Int)), .fin false (13421773 * 2 ^ (-27 : Int))))
    ((List.range k).map fun i => (((i % 7 : Nat) : ℚ) * 2 ^ (0 : Int), 13421773 * 2 ^ (-27 : Int))) (by
      rw [List.forall₂_map_left_iff, List.forall₂_map_right_iff, List.forall₂_same]
      intro i _
      refine ⟨stands_small (i % 7) 0 (by omega) (by decide) (by decide), tenth, ?_, by positivity, by norm_num, by norm_num⟩
      dsimp only
      rw [zpow_zero, mul_one, abs_of_nonneg (by positivity)]
      exact_mod_cast (show i % 7 ≤ 7 by omega))
  refine ⟨D', ps, y, h1, by simpa using h2.length_eq, h3, h4.trans ?_⟩
  unfold outputError averageError
  norm_num

-- a signal of five comes out after four seconds
example : ∃ y, Stands .single (smoothValue 2 (smoothAll 2 (smoothNew 2 (.fin false (3 / 2)) (.fin false 0))
    (List.replicate 40 (.fin false (5 * 2 ^ (0 : Int)), .fin false (13421773 * 2 ^ (-27 : Int)))))) y ∧ |y - 5| ≤ 1 / 20000 := by
  have w : (1 : ℚ) = Fmt.single.srnd (3 / 2 / ((2 : Nat) - 1 / 2)) := by
    rw [show (3 / 2 / (((2 : Nat) : ℚ) - 1 / 2)) = 1 by norm_num, Fmt.srnd_self (prec_pos hs) (one_stands hs).binary]
  obtain ⟨y, h3, h4⟩ := C162_constant 2 (by decide) (by decide) (.fin false (3 / 2)) (.fin false 0) (3 / 2) 0 7 10 1 5
    (by simpa using (show Stands .single (.fin false (3 / 2)) (3 / 2) from
      ⟨⟨by norm_num, by decide +kernel, 3, -1, by decide, by decide, by norm_num⟩, rfl⟩))
    (zero_stands .single hs false) (by norm_num) w fits
    (List.replicate 40 (.fin false (5 * 2 ^ (0 : Int)), .fin false (13421773 * 2 ^ (-27 : Int))))
    (List.replicate 40 (5, 13421773 * 2 ^ (-27 : Int))) (by
      have h5 : Stands .single (.fin false (5 * 2 ^ (0 : Int))) 5 := by
        simpa using stands_small 5 0 (by decide) (by decide) (by decide)
      have h : SampleStands 7 10 1 (.fin false (5 * 2 ^ (0 : Int)), .fin false (13421773 * 2 ^ (-27 : Int))) (5, 13421773 * 2 ^ (-27 : Int)) :=
        ⟨h5, tenth, by norm_num, by positivity, by norm_num, by norm_num⟩
      generalize 40 = n
      induction n with
      | zero => exact .nil
      | succ n ih => exact .cons h ih)
    (by intro q hq; rw [List.eq_of_mem_replicate hq])
    (by rw [List.map_replicate, List.sum_replicate, List.length_replicate]; norm_num)
  refine ⟨y, h3, h4.trans ?_⟩
  unfold outputError averageError
  norm_num

end Flut
