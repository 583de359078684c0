import Verif.Proofs.FloatSpline

/-! # Property theorems: Catmull-Rom segments in floating-point arithmetic (C133) -/

namespace Flut

open Spec FloatMath

/-- C133. For parameters from zero to one the computed point is the point of the Catmull-Rom curve, with an error of at most 96 half units of the
last place of the largest coordinate (and 30 times the smallest number). -/
theorem C133_near (f : Fmt) (hf : f = .double ∨ f = .single) (M : ℚ) (hM : 1000 * M ≤ f.maxVal) (x0 x1 x2 x3 y : Flt) (p0 p1 p2 p3 t : ℚ)
    (h0 : Stands f x0 p0) (h1 : Stands f x1 p1) (h2 : Stands f x2 p2) (h3 : Stands f x3 p3) (b0 : |p0| ≤ M) (b1 : |p1| ≤ M) (b2 : |p2| ≤ M)
    (b3 : |p3| ≤ M) (hy : Stands f y t) (ht0 : 0 ≤ t) (ht1 : t ≤ 1) :
    ∃ r, Stands f (segmentAt f (segment f x0 x1 x2 x3) y) r ∧
      |r - catmullRom p0 p1 p2 p3 t| ≤ 96 * (M / 2 ^ f.prec) + 30 * 2 ^ f.emin :=
  (segment_near hf hM h0 h1 h2 h3 b0 b1 b2 b3 hy (by rw [abs_of_nonneg ht0]; exact ht1)).2.2.2.2.err

/-- C133. At zero it is the second point, exactly. -/
theorem C133_start (f : Fmt) (hf : f = .double ∨ f = .single) (M : ℚ) (hM : 1000 * M ≤ f.maxVal) (x0 x1 x2 x3 y : Flt) (p0 p1 p2 p3 : ℚ)
    (h0 : Stands f x0 p0) (h1 : Stands f x1 p1) (h2 : Stands f x2 p2) (h3 : Stands f x3 p3) (b0 : |p0| ≤ M) (b1 : |p1| ≤ M) (b2 : |p2| ≤ M)
    (b3 : |p3| ≤ M) (hy : Stands f y 0) : Stands f (segmentAt f (segment f x0 x1 x2 x3) y) p1 :=
  segment_start hf hM h0 h1 h2 h3 b0 b1 b2 b3 hy

/-- C133. At one it is the third point, exactly, if the points are small multiples of one power of two. -/
theorem C133_end_partial (f : Fmt) (hf : f = .double ∨ f = .single) (e N : Int) (he : f.emin ≤ e) (hN : 24 * N < 2 ^ f.prec)
    (hm : (24 * N : ℚ) * 2 ^ e ≤ f.maxVal) (x0 x1 x2 x3 y : Flt) (n0 n1 n2 n3 : Int) (h0 : Stands f x0 (n0 * 2 ^ e))
    (h1 : Stands f x1 (n1 * 2 ^ e)) (h2 : Stands f x2 (n2 * 2 ^ e)) (h3 : Stands f x3 (n3 * 2 ^ e)) (b0 : |n0| ≤ N) (b1 : |n1| ≤ N) (b2 : |n2| ≤ N)
    (b3 : |n3| ≤ N) (hy : Stands f y 1) : Stands f (segmentAt f (segment f x0 x1 x2 x3) y) (n2 * 2 ^ e) :=
  segment_end hf he hN hm ⟨h0, b0⟩ ⟨h1, b1⟩ ⟨h2, b2⟩ ⟨h3, b3⟩ hy

/-- Points on a grid of quarters. -/
example : segmentAt .single (segment .single (.fin false (1 / 4)) (.fin true 3) (.fin false (7 / 4)) (.fin false 100)) (.fin false 0) = .fin true 3 ∧
    segmentAt .single (segment .single (.fin false (1 / 4)) (.fin true 3) (.fin false (7 / 4)) (.fin false 100)) (.fin false 1) = .fin false (7 / 4) ∧
    segmentAt .single (segment .single (.fin false (1 / 4)) (.fin true 3) (.fin false (7 / 4)) (.fin false 100)) (.fin false (1 / 2)) =
      .fin true (223 / 32) ∧ catmullRom (1 / 4) (-3) (7 / 4) 100 (1 / 2) = -(223 / 32) := by decide +kernel

/-- The hypotheses hold there. -/
example : ∃ r, Stands .single (segmentAt .single (segment .single (.fin false 1) (.fin false 3) (.fin false 7) (.fin false 100)) (.fin false (1 / 2))) r ∧
    |r - catmullRom 1 3 7 100 (1 / 2)| ≤ 96 * (100 / 2 ^ 24) + 30 * 2 ^ Fmt.single.emin :=
  C133_near .single (.inr rfl) 100 (by decide +kernel) _ _ _ _ _ 1 3 7 100 (1 / 2)
    (by simpa using small_stands (.inr rfl) 1 (by norm_num)) (small_stands (.inr rfl) 3 (by norm_num))
    (small_stands (.inr rfl) 7 (by norm_num)) (small_stands (.inr rfl) 100 (by norm_num)) (by norm_num) (by norm_num) (by norm_num)
    (by norm_num) (half_stands (.inr rfl)) (by norm_num) (by norm_num)

/-- C133. In general the segment does not end at its third point, so that the next segment, which begins there, is not joined to it: from one to
`2 ^ -30` the curve ends at zero. -/
theorem C133_end_refuted : ∃ x0 x1 x2 x3 x4, (∀ x ∈ [x0, x1, x2, x3, x4], IsFloat .single x) ∧
    segmentAt .single (segment .single x0 x1 x2 x3) (.fin false 1) = .fin false 0 ∧
    segmentAt .single (segment .single x1 x2 x3 x4) (.fin false 0) = x2 ∧ x2 = .fin false (1 / 2 ^ 30) := by
  refine ⟨.fin false 0, .fin false 1, .fin false (1 / 2 ^ 30), .fin false 0, .fin false 0, ?_, by decide +kernel, by decide +kernel, rfl⟩
  have hz : IsFloat .single (.fin false 0) := (zero_stands .single (.inr rfl) false).1
  have ho : IsFloat .single (.fin false 1) := (one_stands (.inr rfl)).1
  have ht : IsFloat .single (.fin false (1 / 2 ^ 30)) := ⟨by norm_num, by norm_num [Fmt.maxVal, Fmt.single], 1, -30, by norm_num [Fmt.single],
    by decide, by norm_num⟩
  simp only [List.mem_cons, List.not_mem_nil, or_false]
  rintro x (rfl | rfl | rfl | rfl | rfl) <;> assumption

/-- C133. The curve through four equal points leaves them. -/
theorem C133_constant_refuted : ∃ x, IsFloat .single x ∧ segmentAt .single (segment .single x x x x) (.fin false 1) ≠ x ∧
    (∃ m m', x = .fin false m ∧ segmentAt .single (segment .single x x x x) (.fin false 1) = .fin false m' ∧ m < m') := by
  have e : segmentAt .single (segment .single (.fin false (1 + 1 / 2 ^ 23)) (.fin false (1 + 1 / 2 ^ 23)) (.fin false (1 + 1 / 2 ^ 23))
      (.fin false (1 + 1 / 2 ^ 23))) (.fin false 1) = .fin false (1 + 1 / 2 ^ 22) := by decide +kernel
  refine ⟨.fin false (1 + 1 / 2 ^ 23), ?_, ?_, _, _, rfl, e, by norm_num⟩
  · exact ⟨by norm_num, by norm_num [Fmt.maxVal, Fmt.single], 2 ^ 23 + 1, -23, by norm_num [Fmt.single], by decide, by norm_num⟩
  · rw [e]; decide +kernel

/-- C133. Large points give no number, even at the start of the segment: five times the second point is infinite. -/
theorem C133_large_refuted : ∃ x, IsFloat .single x ∧ (∃ m, x = .fin false m) ∧
    segmentAt .single (segment .single x x x x) (.fin false 0) = .nan false := by
  refine ⟨.fin false (2 ^ 127), ⟨by norm_num, by norm_num [Fmt.maxVal, Fmt.single], 1, 127, by norm_num [Fmt.single], by decide, by norm_num⟩,
    ⟨_, rfl⟩, by decide +kernel⟩

end Flut
