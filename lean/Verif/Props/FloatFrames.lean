import Verif.Model.FloatFrames
import Verif.Spec.FloatStat
import Verif.Proofs.FloatLerp

/-! # Property theorems: values between two frames of a storage in floating-point arithmetic (C152) -/

namespace Flut

open Spec FloatMath

variable {L : Type} [DecidableEq L]

/-- The magnitude of a value that stands for a number that is not negative. -/
theorem stands_nonneg {f : Fmt} {key : Flt} {k : ℚ} (hk : Stands f key k) (h0 : 0 ≤ k) :
    ∃ sg, key = .fin sg k ∧ (sg = true → k = 0) := by
  obtain ⟨sg, m, rfl, hm⟩ := hk.fin
  have hp := hk.1.1
  cases sg
  · simp [Flt.val] at hm
    exact ⟨false, by rw [hm], by simp⟩
  · simp [Flt.val] at hm
    have hk0 : k = 0 := by linarith
    have hm0 : m = 0 := by linarith
    exact ⟨true, by rw [hm0, hk0], fun _ => hk0⟩

/-- What `interpolatedFrame` does with an index that stands for `k`, between two frames. -/
theorem interpolatedFrame_mid {f : Fmt} (hf : f = .double ∨ f = .single) {s : Storage Flt L} {key : Flt} {k : ℚ}
    (hk : Stands f key k) (h0 : 0 ≤ k) {x y : Flt} {n c : Nat} (hn : ⌊k⌋ = n) (hx : s.get n c = .ok x)
    (hy : s.get (n + 1) c = .ok y) (hs : n + 1 < s.frames) (hl : s.frames ≤ 2 ^ 64) :
    ∃ w, interpolatedFrame f key c s = .ok (lerp f w x y) ∧ Stands f w (k - n) := by
  obtain ⟨sg, rfl, hsg⟩ := stands_nonneg hk h0
  obtain ⟨b1, b2⟩ := fract_binary hk.binary h0
  have hle : ((⌊k⌋ : Int) : ℚ) ≤ k := Int.floor_le k
  have hmax := hk.abs_le
  rw [abs_of_nonneg h0] at hmax
  rw [hn] at b1 b2 hle
  have hib : ((n : Int) : ℚ) = (n : ℚ) := by simp
  rw [hib] at b1 b2 hle
  have hi0 : (0 : ℚ) ≤ n := by positivity
  have r1 : Stands f (.fin sg (n : ℚ)) n := by
    refine ⟨⟨hi0, by linarith, b2⟩, ?_⟩
    cases sg
    · rfl
    · have : (n : ℚ) = 0 := by have := hsg rfl; linarith
      rw [this]; simp [Flt.pos]
  have hsub : 0 ≤ k - n := by linarith
  have r2 : Stands f (f.sub (.fin sg k) (.fin sg (n : ℚ))) (k - n) := by
    have := sub_stands hf hk r1 (by rw [abs_of_nonneg hsub]; linarith)
    rwa [Fmt.srnd_self (prec_pos hf) b1] at this
  refine ⟨_, ?_, r2⟩
  have h64 : ¬ ((n : Int) ≥ 2 ^ 64) := by
    have : (n : Int) < 2 ^ 64 := by exact_mod_cast (by omega : n < 2 ^ 64)
    omega
  have hmod : (n + 1) % 2 ^ 64 = n + 1 := Nat.mod_eq_of_lt (by omega)
  have hneg : ¬ (sg = true ∧ k ≠ 0) := fun h => h.2 (hsg h.1)
  have e2 : n * s.channels + c + s.channels = (n + 1) * s.channels + c := by ring
  simp only [Storage.get] at hx hy
  simp only [interpolatedFrame, if_neg hneg, hn, if_neg h64, Int.toNat_natCast, hmod, hs, if_true, hx, Res.bind_ok, e2, hy, hib]

/-- Between two frames the result is the exact interpolation up to rounding. -/
theorem C152_between (f : Fmt) (hf : f = .double ∨ f = .single) (s : Storage Flt L) (hl : s.frames ≤ 2 ^ 64) (c : Nat)
    (v : List Flt) (hv : Channel s c v) (key : Flt) (k : ℚ) (hk : Stands f key k) (h0 : 0 ≤ k) (n : Nat) (hn : ⌊k⌋ = n)
    (x y : Flt) (hx : v[n]? = some x) (hy : v[n + 1]? = some y) (a b M : ℚ) (hxa : Stands f x a) (hyb : Stands f y b)
    (ha : |a| ≤ M) (hb : |b| ≤ M) (hM : 4 * M ≤ f.maxVal) :
    ∃ r q, interpolatedFrame f key c s = .ok r ∧ Stands f r q ∧
      |q - (a + (k - n) * (b - a))| ≤ 4 * M / 2 ^ f.prec + 2 * 2 ^ f.emin := by
  obtain ⟨h1, -⟩ := List.getElem?_eq_some_iff.1 hy
  obtain ⟨w, hw, hq⟩ := interpolatedFrame_mid hf hk h0 hn (hv.2 n x hx) (hv.2 (n + 1) y hy) (hv.1 ▸ h1) hl
  have h1 : (n : ℚ) ≤ k := by have := Int.floor_le k; rw [hn] at this; simpa using this
  have h2 : k < n + 1 := by have := Int.lt_floor_add_one k; rw [hn] at this; simpa using this
  obtain ⟨v, hv, he⟩ := lerp_err hf hq (by linarith) (by linarith) hxa hyb ha hb hM
  refine ⟨_, v, hw, hv, ?_⟩
  have e : a + (k - n) * (b - a) = (1 - (k - n)) * a + (k - n) * b := by ring
  rw [e]; exact he

/-- At the index of a frame, plus or minus zero for the first one, the result is its value, if there is a next frame whose value is
finite. -/
theorem C152_at (f : Fmt) (hf : f = .double ∨ f = .single) (s : Storage Flt L) (hl : s.frames ≤ 2 ^ 64) (c : Nat)
    (v : List Flt) (hv : Channel s c v) (key : Flt) (n : Nat) (hk : Stands f key n) (x y : Flt) (hx : v[n]? = some x)
    (hy : v[n + 1]? = some y) (a b : ℚ) (hxa : Stands f x a) (hyb : Stands f y b) :
    ∃ r, interpolatedFrame f key c s = .ok r ∧ Stands f r a := by
  obtain ⟨h1, -⟩ := List.getElem?_eq_some_iff.1 hy
  obtain ⟨w, hw, hq⟩ := interpolatedFrame_mid hf hk (by positivity) (Int.floor_natCast n) (hv.2 n x hx) (hv.2 (n + 1) y hy)
    (hv.1 ▸ h1) hl
  rw [sub_self] at hq
  exact ⟨_, hw, lerp_zero hf hq hxa hyb⟩

/-- From the last frame on an index is rejected, also that of the last frame. -/
theorem C152_last_refuted (f : Fmt) (s : Storage Flt L) (c : Nat) (key : Flt) (k : ℚ) (hk : Stands f key k)
    (h0 : 0 ≤ k) (h1 : (s.frames : ℚ) - 1 ≤ k) (h2 : k < 2 ^ 64 - 1) :
    interpolatedFrame f key c s = .throws .assertion := by
  obtain ⟨sg, rfl, hsg⟩ := stands_nonneg hk h0
  have hneg : ¬ (sg = true ∧ k ≠ 0) := fun h => h.2 (hsg h.1)
  have f1 : ⌊k⌋ < 2 ^ 64 - 1 := by rw [Int.floor_lt]; exact_mod_cast h2
  have f2 : (s.frames : Int) - 1 ≤ ⌊k⌋ := by rw [Int.le_floor]; exact_mod_cast h1
  have f0 : 0 ≤ ⌊k⌋ := Int.floor_nonneg.2 h0
  obtain ⟨i, hi⟩ := Int.eq_ofNat_of_zero_le f0
  rw [hi] at f1 f2
  have h64 : ¬ ((i : Int) ≥ 2 ^ 64) := by omega
  have hi64 : (i : Int) + 1 < 2 ^ 64 := by omega
  have hmod : (i + 1) % 2 ^ 64 = i + 1 := Nat.mod_eq_of_lt (by exact_mod_cast hi64)
  have hge : ¬ (i + 1 < s.frames) := by omega
  simp only [interpolatedFrame, if_neg hneg, hi, if_neg h64, Int.toNat_natCast, hmod, if_neg hge]

/-- Below zero, by however little, from 2^64 on, and for infinities and what is not a number, the behaviour is undefined. -/
theorem C152_undefined (f : Fmt) (s : Storage Flt L) (c : Nat) (key : Flt) (hk : IsFloat f key)
    (h : ¬ IsNumber key ∨ Below key (.fin false 0) ∨ AtMost (.fin false (2 ^ 64)) key) :
    interpolatedFrame f key c s = .ub := by
  match key with
  | .nan _ => rfl
  | .inf _ => rfl
  | .fin sg m =>
    rcases h with h | h | h
    · exact absurd ⟨_, rfl⟩ h
    · have := lt_iff.2 h
      simp only [Flt.lt, Bool.false_eq_true, if_false, decide_eq_true_eq] at this
      cases sg
      · simp only [Bool.false_eq_true, if_false] at this
        exact absurd this (not_lt.2 hk.1)
      · simp only [if_true] at this
        have hm : m ≠ 0 := by rintro rfl; simp at this
        simp only [interpolatedFrame, hm, ne_eq, not_false_eq_true, and_self, if_true]
    · have := le_iff.2 h
      simp only [Flt.le, Bool.false_eq_true, if_false, decide_eq_true_eq] at this
      cases sg
      · simp only [Bool.false_eq_true, if_false] at this
        have hf : ⌊m⌋ ≥ 2 ^ 64 := by rw [ge_iff_le, Int.le_floor]; exact_mod_cast this
        simp only [interpolatedFrame, Bool.false_eq_true, false_and, if_false, if_pos hf]
      · simp only [if_true] at this
        have hm : m ≠ 0 := by rintro rfl; norm_num at this
        simp only [interpolatedFrame, hm, ne_eq, not_false_eq_true, and_self, if_true]

/-- The value of a frame is lost if that of the next one is infinite. -/
theorem C152_poison_refuted (f : Fmt) (hf : f = .double ∨ f = .single) (s : Storage Flt L) (hl : s.frames ≤ 2 ^ 64) (c : Nat)
    (v : List Flt) (hv : Channel s c v) (key : Flt) (n : Nat) (hk : Stands f key n) (x : Flt) (hx : v[n]? = some x) (b : Bool)
    (hy : v[n + 1]? = some (.inf b)) : ∃ z, interpolatedFrame f key c s = .ok (.nan z) := by
  obtain ⟨h1, -⟩ := List.getElem?_eq_some_iff.1 hy
  obtain ⟨w, hw, hq⟩ := interpolatedFrame_mid hf hk (by positivity) (Int.floor_natCast n) (hv.2 n x hx) (hv.2 (n + 1) _ hy)
    (hv.1 ▸ h1) hl
  rw [sub_self] at hq
  obtain ⟨s', m, rfl, hm⟩ := hq.fin
  have : m = 0 := by cases s' <;> simpa [Flt.val] using hm
  subst this
  rw [hw]
  refine ⟨false, ?_⟩
  have e : f.mul (.fin s' 0) (.inf b) = .nan false := by simp [Fmt.mul]
  rw [lerp, e]
  rcases f.mul (f.sub (.fin false 1) (.fin s' 0)) x with ⟨_, _⟩ | ⟨_⟩ | _ <;> rfl

/-- The index of a frame need not exist: there is no value of the format for frame 2^p + 1, with p bits of precision (24 for
`float`). -/
theorem C152_no_index_refuted (f : Fmt) (hf : f = .double ∨ f = .single) (key : Flt) : ¬ Stands f key ((2 ^ f.prec + 1 : Nat) : ℚ) := by
  intro h
  obtain ⟨m, e, hm, -, he⟩ := h.binary
  have hp := prec_pos hf
  rcases Int.lt_or_le 0 e with h1 | h1
  · have h1 : 1 ≤ e := h1
    obtain ⟨k, rfl⟩ := Int.le.dest h1
    have e1 : ((2 ^ f.prec + 1 : Nat) : Int) = m * 2 ^ (1 + k) := by
      have : ((2 ^ f.prec + 1 : Nat) : ℚ) = ((m * 2 ^ (1 + k) : Int) : ℚ) := by
        rw [he]; push_cast; rw [← zpow_natCast]; push_cast; ring
      exact_mod_cast this
    obtain ⟨q, hq⟩ : ∃ q, f.prec = q + 1 := ⟨f.prec - 1, by omega⟩
    rw [hq, pow_succ, pow_add] at e1
    push_cast at e1
    generalize (2 : Int) ^ q = A at e1
    generalize (2 : Int) ^ k = B at e1
    have : m * (2 * B) = 2 * (m * B) := by ring
    rw [this] at e1
    generalize m * B = C at e1
    omega
  · have h2 : (2 : ℚ) ^ e ≤ 1 := zpow_le_one_of_nonpos₀ (by norm_num) h1
    have h3 : (0 : ℚ) < 2 ^ e := by positivity
    have hm' : (m : ℚ) < 2 ^ f.prec := by exact_mod_cast (abs_lt.1 hm).2
    have hpos : (0 : ℚ) < m * 2 ^ e := by rw [← he]; positivity
    have hm0 : (0 : ℚ) < m := by
      rcases lt_or_ge 0 (m : ℚ) with h | h
      · exact h
      · exact absurd hpos (not_lt.2 (mul_nonpos_of_nonpos_of_nonneg h h3.le))
    have : (m : ℚ) * 2 ^ e ≤ m * 1 := mul_le_mul_of_nonneg_left h2 hm0.le
    rw [← he] at this
    push_cast at this
    linarith

/-- Between two frames with the same value the result may be another one, above it. -/
theorem C152_constant_refuted : ∃ (s : Storage Flt Str) (x r key : Flt), IsFloat .double x ∧ IsFloat .double key ∧
    Channel s 0 [x, x] ∧ interpolatedFrame .double key 0 s = .ok r ∧ Below x r := by
  refine ⟨⟨2, ⟨[b!"a"], [(b!"a", 0)]⟩, [.fin false (7505999378950827 / 2 ^ 52), .fin false (7505999378950827 / 2 ^ 52)]⟩,
    .fin false (7505999378950827 / 2 ^ 52), .fin false (7505999378950828 / 2 ^ 52), .fin false (5 / 2 ^ 4), ?_, ?_, ?_,
    by decide +kernel, ?_⟩
  · exact (stands_double false (n := 7505999378950827) (e := 52) (by norm_num) (by norm_num)).1
  · exact (stands_double false (n := 5) (e := 4) (by norm_num) (by norm_num)).1
  · refine ⟨rfl, ?_⟩
    intro r x h
    match r, h with
    | 0, h => cases h; rfl
    | 1, h => cases h; rfl
  · rw [← lt_iff]; simp [Flt.lt]; norm_num

/-- A channel that does not exist is not reported: the values are those of other frames. -/
theorem C152_channel_refuted : ∃ s : Storage Flt Str,
    Storage.runAll [] (.fin false 0) [.addChannel b!"a" (.fin false 0), .addFrame (.fin false 1), .addFrame (.fin false 3),
      .addFrame (.fin false 9)] (Storage.new [] 0 0 (.fin false 0)) = .ok s ∧
    s.channels = 1 ∧ interpolatedFrame .double (.fin false 0) 1 s = .ok (.fin false 3) ∧
    interpolatedFrame .double (.fin false 1) 1 s = .ub := by
  refine ⟨⟨3, ⟨[b!"a"], [(b!"a", 0)]⟩, [.fin false 1, .fin false 3, .fin false 9]⟩, ?_⟩
  decide +kernel

/-- A storage made by the operations, a channel of it and a position between two frames: the theorems apply. -/
example : ∃ s : Storage Flt Str,
    Storage.runAll [] (.fin false 0) [.addChannel b!"a" (.fin false 0), .addFrame (.fin false 1), .addFrame (.fin false 3)]
      (Storage.new [] 0 0 (.fin false 0)) = .ok s ∧ s.frames ≤ 2 ^ 64 ∧ Channel s 0 [.fin false 1, .fin false 3] ∧
    interpolatedFrame .double (.fin false (1 / 2)) 0 s = .ok (.fin false 2) ∧
    interpolatedFrame .double (.fin true 0) 0 s = .ok (.fin false 1) ∧
    interpolatedFrame .double (.fin false 1) 0 s = .throws .assertion ∧
    interpolatedFrame .double (.fin true (1 / 2 ^ 1000)) 0 s = .ub := by
  refine ⟨⟨2, ⟨[b!"a"], [(b!"a", 0)]⟩, [.fin false 1, .fin false 3]⟩, by decide +kernel, by decide +kernel, ?_, by decide +kernel,
    by decide +kernel, by decide +kernel, by decide +kernel⟩
  refine ⟨rfl, ?_⟩
  intro r x h
  match r, h with
  | 0, h => cases h; rfl
  | 1, h => cases h; rfl

end Flut
