import Verif.Proofs.FloatStat
import Verif.Props.FloatFilter

/-! # Property theorems: means and covariance in floating-point arithmetic (C137) -/

namespace Flut

open Spec FloatMath

/-- C137. Whatever was done to a storage, each channel holds one value for each frame. -/
theorem C137_channels {L : Type} [DecidableEq L] (dl : L) (dv value : Flt) (frames channels : Nat) (ops : List (Storage.Op Flt L)) (s : Storage Flt L)
    (h : Storage.runAll dl dv ops (Storage.new dl frames channels value) = .ok s) : ∃ V : Nat → List Flt, ∀ c < s.channels, Channel s c (V c) := by
  have ha := C36_storage dl dv frames channels value ops
  rw [h] at ha
  cases hm : Matrix.run dv ops (Matrix.init frames channels value) with
  | ok m =>
    rw [hm] at ha
    have ha : StorageShows dl s m := ha
    have hx : ∀ r c, ∃ x, r < s.frames → c < s.channels → s.get r c = .ok x := by
      intro r c
      by_cases hrc : r < s.frames ∧ c < s.channels
      · obtain ⟨x, -, -, hx⟩ := ha.cell r c (by rw [← ha.frames]; exact hrc.1) (by rw [← ha.channels]; exact hrc.2)
        exact ⟨x, fun _ _ => hx⟩
      · exact ⟨dv, fun h1 h2 => absurd ⟨h1, h2⟩ hrc⟩
    choose X hX using hx
    refine ⟨fun c => (List.range s.frames).map fun r => X r c, fun c hc => ⟨by simp, ?_⟩⟩
    intro r x hr
    have hlt : r < s.frames := by
      have := (List.getElem?_eq_some_iff.1 hr).1
      simpa using this
    rw [List.getElem?_map, List.getElem?_range hlt] at hr
    rw [hX r c hlt hc]
    simpa using hr
  | throws e => rw [hm] at ha; exact ha.elim
  | ub => rw [hm] at ha; exact ha.elim
  | diverges => rw [hm] at ha; exact ha.elim

section

variable {L : Type} [DecidableEq L]

/-- C137. The mean of a channel is right to about as many units of its largest magnitude as there are frames, whatever is in the
other channels. -/
theorem C137_means (f : Fmt) (hf : f = .double ∨ f = .single) (s : Storage Flt L) (V : Nat → List Flt) (hV : ∀ c < s.channels, Channel s c (V c)) :
    ∃ m, FloatMath.channelMeans f s = .ok m ∧ m.length = s.channels ∧
      ∀ c < s.channels, ∀ (p : List ℚ) (A : ℚ), List.Forall₂ (Stands f) (V c) p → p ≠ [] → (∀ x ∈ p, |x| ≤ A) → 1000 * p.length ≤ 2 ^ f.prec →
        8 * (p.length * A) ≤ f.maxVal → ∃ x a, m[c]? = some x ∧ Stands f x a ∧ |a - mean p| ≤ 8 / 7 * p.length * A / 2 ^ f.prec + 2 ^ f.emin / 2 := by
  refine ⟨_, fchannelMeans_eq s V hV, by simp, ?_⟩
  intro c hc p A hp h0 hA hn hmax
  have hnu : (p.length : ℚ) * (1 / 2 ^ f.prec) ≤ 1 / 1000 := by
    rw [mul_one_div, div_le_iff₀ (by positivity)]
    have : (1000 : ℚ) * p.length ≤ 2 ^ f.prec := by exact_mod_cast hn
    linarith
  obtain ⟨a, h1, h2⟩ := mean_near hf hp h0 hA hnu hmax
  refine ⟨_, a, ?_, h1, h2.trans (le_of_eq (by ring))⟩
  rw [List.getElem?_map, List.getElem?_range hc]
  rfl

/-- C137. There always is a table, with a row and a column for each channel. It is symmetric to the last bit, for all values. -/
theorem C137_symmetric (f : Fmt) (dl : L) (s : Storage Flt L) (V : Nat → List Flt) (hV : ∀ c < s.channels, Channel s c (V c)) :
    ∃ t, FloatMath.covariance f dl s = .ok t ∧ t.rows.size = s.channels ∧ t.cols.size = s.channels ∧
      ∀ i < s.channels, ∀ j < s.channels, ∃ x, t.get i j = .ok x ∧ t.get j i = .ok x := by
  obtain ⟨t, h1, h2, h3, h4⟩ := fcovariance_eq (f := f) dl s V hV
  refine ⟨t, h1, h2, h3, fun i hi j hj => ⟨_, h4 i hi j hj, ?_⟩⟩
  rw [h4 j hj i hi]
  unfold covCell
  rw [devSum_comm, (hV i hi).1, (hV j hj).1]

/-- C137. Variances are never negative, for all values. -/
theorem C137_variance (f : Fmt) (dl : L) (s : Storage Flt L) (V : Nat → List Flt) (hV : ∀ c < s.channels, Channel s c (V c)) :
    ∃ t, FloatMath.covariance f dl s = .ok t ∧ ∀ i < s.channels, ∃ x, t.get i i = .ok x ∧ ¬ Below x (.fin false 0) := by
  obtain ⟨t, h1, h2, h3, h4⟩ := fcovariance_eq (f := f) dl s V hV
  refine ⟨t, h1, fun i hi => ⟨_, h4 i hi i hi, ?_⟩⟩
  exact (NoMinus.div f (devSum_noMinus f _ _) (NoMinus.result f (by positivity))).not_below

/-- C137. A channel with an infinite value, or one that is not a number, has no covariance: all of its row and column is not a number. -/
theorem C137_not_finite (f : Fmt) (dl : L) (s : Storage Flt L) (V : Nat → List Flt) (hV : ∀ c < s.channels, Channel s c (V c)) :
    ∃ t, FloatMath.covariance f dl s = .ok t ∧ ∀ i < s.channels, (∃ x ∈ V i, NotFinite x) → ∀ j < s.channels,
      ∃ x, t.get i j = .ok x ∧ t.get j i = .ok x ∧ NotNumber x := by
  obtain ⟨t, h1, h2, h3, h4⟩ := fcovariance_eq (f := f) dl s V hV
  refine ⟨t, h1, fun i hi ⟨x, hx, hn⟩ j hj => ⟨_, h4 i hi j hj, ?_, ?_⟩⟩
  · rw [h4 j hj i hi]
    unfold covCell
    rw [devSum_comm, (hV i hi).1, (hV j hj).1]
  · exact div_notNumber f (devSum_notNumber f _ (by rw [(hV i hi).1, (hV j hj).1]) hx hn)

/-- C137. Without frames there is no mean and no covariance either. -/
theorem C137_empty (f : Fmt) (hf : f = .double ∨ f = .single) (dl : L) (s : Storage Flt L) (V : Nat → List Flt)
    (hV : ∀ c < s.channels, Channel s c (V c)) (h0 : s.frames = 0) :
    ∃ m t, FloatMath.channelMeans f s = .ok m ∧ (∀ x ∈ m, NotNumber x) ∧ FloatMath.covariance f dl s = .ok t ∧
      ∀ i < s.channels, ∀ j < s.channels, ∃ x, t.get i j = .ok x ∧ NotNumber x := by
  have hz : f.div (.fin false 0) (f.ofRat ((0 : Nat) : ℚ)) = .nan false := by rcases hf with rfl | rfl <;> decide +kernel
  have hv : ∀ c < s.channels, V c = [] := fun c hc => List.length_eq_zero_iff.1 ((hV c hc).1.trans h0)
  obtain ⟨t, h1, -, -, h4⟩ := fcovariance_eq (f := f) dl s V hV
  refine ⟨_, t, fchannelMeans_eq s V hV, ?_, h1, fun i hi j hj => ⟨_, h4 i hi j hj, ?_⟩⟩
  · intro x hx
    obtain ⟨c, hc, rfl⟩ := List.mem_map.1 hx
    rw [hv c (List.mem_range.1 hc)]
    change (f.div (.fin false 0) (f.ofRat ((0 : Nat) : ℚ))).pos = none
    rw [hz]; rfl
  · rw [hv i hi, hv j hj]
    change (f.div (.fin false 0) (f.ofRat ((0 : Nat) : ℚ))).pos = none
    rw [hz]; rfl

/-- C137. Each cell is the covariance of its two channels, to about 27 units for each frame of the product of their largest magnitudes,
whatever is in the other channels. -/
theorem C137_error (f : Fmt) (hf : f = .double ∨ f = .single) (dl : L) (s : Storage Flt L) (V : Nat → List Flt)
    (hV : ∀ c < s.channels, Channel s c (V c)) :
    ∃ t, FloatMath.covariance f dl s = .ok t ∧ ∀ i < s.channels, ∀ j < s.channels, ∀ (p q : List ℚ) (A B : ℚ),
      List.Forall₂ (Stands f) (V i) p → List.Forall₂ (Stands f) (V j) q → (∀ x ∈ p, |x| ≤ A) → (∀ x ∈ q, |x| ≤ B) →
      ∀ n : Nat, n = s.frames → 0 < n → 1000 * n ≤ 2 ^ f.prec → 8 * (n * A) ≤ f.maxVal → 8 * (n * B) ≤ f.maxVal → 8 * (n * (A * B)) ≤ f.maxVal →
      ∃ x r, t.get i j = .ok x ∧ Stands f x r ∧ |r - Spec.covariance p q| ≤ 27 * n * (A * B) / 2 ^ f.prec + 3 * (A + B + 1) * 2 ^ f.emin := by
  obtain ⟨t, h1, h2, h3, h4⟩ := fcovariance_eq (f := f) dl s V hV
  refine ⟨t, h1, ?_⟩
  intro i hi j hj p q A B hp hq hA hB n hns hn0 hn hmA hmB hmAB
  have hlp : p.length = n := by rw [hns, ← hp.length_eq, (hV i hi).1]
  have hlq : q.length = n := by rw [hns, ← hq.length_eq, (hV j hj).1]
  have hp0 : p ≠ [] := List.length_pos_iff.1 (by omega)
  have hq0 : q ≠ [] := List.length_pos_iff.1 (by omega)
  have hn1 : (1 : ℚ) ≤ n := by exact_mod_cast hn0
  have hnu : (n : ℚ) * (1 / 2 ^ f.prec) ≤ 1 / 1000 := by
    rw [mul_one_div, div_le_iff₀ (by positivity)]
    have : (1000 : ℚ) * n ≤ 2 ^ f.prec := by exact_mod_cast hn
    linarith
  obtain ⟨σ, hσ, eσ⟩ := devSum_near hf hp hq (by rw [(hV i hi).1, (hV j hj).1]) hp0 hA hB (by rw [hlp]; exact hnu) (by rw [hlp]; exact hmA)
    (by rw [hlp]; exact hmB) (by rw [hlp]; exact hmAB)
  rw [hlp] at eσ
  have hN := nat_stands hf (n := n) (by omega)
  have hd : |σ / n| ≤ f.maxVal := by
    rw [abs_div, abs_of_pos (a := (n : ℚ)) (by linarith)]
    exact (div_le_self (abs_nonneg _) hn1).trans hσ.abs_le
  refine ⟨_, f.srnd (σ / n), h4 i hi j hj, ?_, ?_⟩
  · unfold covCell
    rw [(hV i hi).1, ← hns]
    exact div_stands hf hσ hN (by linarith) hd
  · obtain ⟨hu0, hη0, hη1, hη2, hM⟩ := stat_consts hf
    have hr := srnd_err (f := f) (σ / n)
    rw [div_eq_mul_one_div |σ / n|] at hr
    have hA0 : 0 ≤ A := (abs_nonneg _).trans (mean_abs_le hp0 hA)
    have hB0 : 0 ≤ B := (abs_nonneg _).trans (mean_abs_le hq0 hB)
    -- the exact covariance
    have hc : |Spec.covariance p q| ≤ 4 * (A * B) := by
      unfold Spec.covariance deviations
      rw [hlp, abs_div, abs_of_pos (a := (n : ℚ)) (by linarith), div_le_iff₀ (by linarith)]
      refine (abs_sum_le _).trans ?_
      have hb : ∀ x ∈ List.zipWith (fun x y => (x - mean p) * (y - mean q)) p q, |x| ≤ 4 * (A * B) := by
        intro x hx
        obtain ⟨i, hi, rfl⟩ := List.getElem_of_mem hx
        rw [List.getElem_zipWith, abs_mul]
        have hi1 : i < p.length := by simp at hi; omega
        have hi2 : i < q.length := by simp at hi; omega
        have k1 := (abs_sub p[i] (mean p)).trans (add_le_add (hA _ (List.getElem_mem hi1)) (mean_abs_le hp0 hA))
        have k2 := (abs_sub q[i] (mean q)).trans (add_le_add (hB _ (List.getElem_mem hi2)) (mean_abs_le hq0 hB))
        have := mul_le_mul k1 k2 (abs_nonneg _) (by linarith)
        linarith
      have := sum_abs_le hb
      rw [List.length_zipWith, hlp, hlq, min_self] at this
      linarith
    have h5 : |σ / n - Spec.covariance p q| ≤ 22 * (n * (1 / 2 ^ f.prec) * (A * B)) + 2 * (2 ^ f.emin * (A + B + 1)) := by
      unfold Spec.covariance
      rw [hlp, ← sub_div, abs_div, abs_of_pos (a := (n : ℚ)) (by linarith), div_le_iff₀ (by linarith), mul_comm]
      exact eσ
    have h6 : |σ / n| ≤ 22 * (n * (1 / 2 ^ f.prec) * (A * B)) + 2 * (2 ^ f.emin * (A + B + 1)) + 4 * (A * B) := by
      have := abs_add_le (σ / n - Spec.covariance p q) (Spec.covariance p q)
      rw [sub_add_cancel] at this
      linarith
    have h7 := mul_le_mul_of_nonneg_right h6 hu0.le
    have e : f.srnd (σ / n) - Spec.covariance p q = (f.srnd (σ / n) - σ / n) + (σ / n - Spec.covariance p q) := by ring
    rw [e]
    refine (abs_add_le _ _).trans ?_
    have e2 : 27 * (n : ℚ) * (A * B) / 2 ^ f.prec = 27 * (n * (1 / 2 ^ f.prec) * (A * B)) := by ring
    have e3 : 3 * (A + B + 1) * (2 : ℚ) ^ f.emin = 3 * (2 ^ f.emin * (A + B + 1)) := by ring
    rw [e2, e3]
    have hAB : 0 ≤ A * B := by positivity
    generalize 1 / (2 : ℚ) ^ f.prec = u at *
    generalize (2 : ℚ) ^ f.emin = η at *
    have hu1 : u ≤ 1 / 1000 := by nlinarith
    have hw : 0 ≤ n * u * (A * B) := by positivity
    have hS : 0 ≤ η * (A + B + 1) := by positivity
    have hS1 : η ≤ η * (A + B + 1) := by nlinarith
    have k1 : (n * u * (A * B)) * u ≤ (n * u * (A * B)) * (1 / 1000) := mul_le_mul_of_nonneg_left hu1 hw
    have k2 : η * (A + B + 1) * u ≤ η * (A + B + 1) * (1 / 1000) := mul_le_mul_of_nonneg_left hu1 hS
    have k3 : A * B * u ≤ n * u * (A * B) := by
      have : 0 ≤ A * B * u := by positivity
      nlinarith
    have e4 : (22 * (n * u * (A * B)) + 2 * (η * (A + B + 1)) + 4 * (A * B)) * u =
        22 * ((n * u * (A * B)) * u) + 2 * (η * (A + B + 1) * u) + 4 * (A * B * u) := by ring
    rw [e4] at h7
    linarith

end

/-- C137 fails for a channel that never changes: its variance may be positive. (0.1, three times.) -/
theorem C137_constant_refuted : ∃ x v : Flt, IsFloat .double x ∧
    (do let t ← FloatMath.covariance .double 0 (Storage.new 0 3 1 x); t.get 0 0) = .ok v ∧ Below (.fin false 0) v :=
  ⟨.fin false (3602879701896397 / 2 ^ 55), covCell .double (List.replicate 3 (.fin false (3602879701896397 / 2 ^ 55)))
      (List.replicate 3 (.fin false (3602879701896397 / 2 ^ 55))),
    (stands_double false (n := 3602879701896397) (e := 55) (by norm_num) (by norm_num)).1, by decide +kernel, lt_iff.1 (by decide +kernel)⟩

/-- Two channels, 4, 0, 6 and 24, 0, 36. -/
def schwarzStorage : Storage Flt Nat :=
  ⟨3, .new 0 2, [.fin false 4, .fin false 24, .fin false 0, .fin false 0, .fin false 6, .fin false 36]⟩

/-- C137 fails for the inequality of Cauchy and Schwarz: the square of a covariance may be more than the product of the variances,
a correlation of more than one. -/
theorem C137_schwarz_refuted : ∃ c va vb : ℚ,
    (do let t ← FloatMath.covariance .double 0 schwarzStorage; t.get 0 1) = .ok (.fin false c) ∧
    (do let t ← FloatMath.covariance .double 0 schwarzStorage; t.get 0 0) = .ok (.fin false va) ∧
    (do let t ← FloatMath.covariance .double 0 schwarzStorage; t.get 1 1) = .ok (.fin false vb) ∧ va * vb < c * c := by
  refine ⟨(covCell .double [.fin false 4, .fin false 0, .fin false 6] [.fin false 24, .fin false 0, .fin false 36]).val,
    (covCell .double [.fin false 4, .fin false 0, .fin false 6] [.fin false 4, .fin false 0, .fin false 6]).val,
    (covCell .double [.fin false 24, .fin false 0, .fin false 36] [.fin false 24, .fin false 0, .fin false 36]).val, ?_, ?_, ?_, ?_⟩ <;> decide +kernel

/-- The storage is one that operations lead to. -/
example : Storage.runAll 0 (.fin false 0) [.addFrameData [.fin false 4, .fin false 24], .addFrameData [.fin false 0, .fin false 0],
    .addFrameData [.fin false 6, .fin false 36]] (Storage.new 0 0 2 (.fin false 0)) = .ok schwarzStorage := by decide +kernel

/-- Its channels, and the numbers they stand for. -/
example : Channel schwarzStorage 0 [.fin false 4, .fin false 0, .fin false 6] ∧ Channel schwarzStorage 1 [.fin false 24, .fin false 0, .fin false 36] ∧
    List.Forall₂ (Stands .double) [.fin false 4, .fin false 0, .fin false 6] [4, 0, 6] ∧
    (∀ x ∈ [(4 : ℚ), 0, 6], |x| ≤ 6) ∧ 1000 * 3 ≤ 2 ^ Fmt.double.prec ∧ (8 : ℚ) * ((3 : Nat) * (6 * 36)) ≤ Fmt.double.maxVal := by
  refine ⟨⟨rfl, ?_⟩, ⟨rfl, ?_⟩, ?_, by decide +kernel, by decide, by decide +kernel⟩
  · rintro (_ | _ | _ | r) x h <;> simp at h <;> subst h <;> rfl
  · rintro (_ | _ | _ | r) x h <;> simp at h <;> subst h <;> rfl
  · refine .cons ?_ (.cons (zero_stands _ (.inl rfl) false) (.cons ?_ .nil))
    · simpa using stands_double false (n := 4) (e := 0) (by norm_num) (by norm_num)
    · simpa using stands_double false (n := 6) (e := 0) (by norm_num) (by norm_num)

/-- A channel with an infinite value. -/
example : (do let t ← FloatMath.covariance .double 0 (⟨2, .new 0 2, [.fin false 4, .inf false, .fin false 0, .fin false 1]⟩ : Storage Flt Nat); t.get 0 1) =
    .ok (.nan false) := by decide +kernel

/-- A covariance of two single precision channels: 37 1/3, which becomes 37.3333320617675781. -/
example : (do let t ← FloatMath.covariance .single 0 schwarzStorage; t.get 0 1) = .ok (.fin false (9786709 / 2 ^ 18)) := by decide +kernel

end Flut
