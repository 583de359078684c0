import Verif.Model.Scalar
import Mathlib.Tactic.Ring
import Mathlib.Tactic.Linarith
import Mathlib.Tactic.FieldSimp
import Mathlib.Tactic.NormNum
import Mathlib.Data.Rat.Floor
import Mathlib.Algebra.Order.Group.Abs

/-!
# Scalar mathematics (C53–C57, C76)
-/

namespace Flut

/-! ## C53 -/

theorem C53_power_of_two {w : Nat} (v : BitVec w) : isPowerOfTwo v = true ↔ ∃ k, v.toNat = 2 ^ k := by
  unfold isPowerOfTwo
  have h0 : v ≠ 0#w ↔ v.toNat ≠ 0 := by
    rw [ne_eq, ← BitVec.toNat_inj]; simp
  have key := @Nat.ne_zero_and_sub_one_eq_zero_iff_isPowerOfTwo v.toNat
  rw [Nat.isPowerOfTwo] at key
  rw [← key]
  by_cases hz : v = 0#w
  · simp [hz]
  · have hz' := h0.1 hz
    have hw : w ≠ 0 := by
      rintro rfl
      exact hz (BitVec.eq_nil v)
    have h1 : (1#w).toNat = 1 := by
      rw [BitVec.toNat_ofNat]
      exact Nat.mod_eq_of_lt (Nat.one_lt_two_pow hw)
    have hs : (v - 1#w).toNat = v.toNat - 1 := by
      rw [BitVec.toNat_sub_of_le]
      · rw [h1]
      · rw [BitVec.le_def, h1]; omega
    have he : (v &&& (v - 1#w)) = 0#w ↔ v.toNat &&& (v.toNat - 1) = 0 := by
      rw [← BitVec.toNat_inj, BitVec.toNat_and, hs]; simp
    simp only [bne_iff_ne, ne_eq, Bool.and_eq_true, beq_iff_eq]
    exact ⟨fun h => ⟨hz', he.1 h.2⟩, fun h => ⟨hz, he.2 h.2⟩⟩

example : isPowerOfTwo (64#8) = true ∧ isPowerOfTwo (65#8) = false ∧ isPowerOfTwo (128#8) = true ∧ isPowerOfTwo (0#8) = false := by
  decide

/-- For signed types: exactly the positive powers of two, except that the least value is undefined. -/
theorem C53_power_of_two_signed {w : Nat} (v : BitVec w) (hv : v ≠ BitVec.intMin w) :
    ∃ b, isPowerOfTwoSigned v = some b ∧ (b = true ↔ ∃ k : Nat, v.toInt = 2 ^ k) := by
  unfold isPowerOfTwoSigned
  by_cases hz : v = 0#w
  · refine ⟨false, if_pos hz, ?_⟩
    subst hz
    simp only [Bool.false_eq_true, BitVec.toInt_zero, false_iff, not_exists]
    intro k
    have : (0 : Int) < 2 ^ k := Int.pow_pos (by decide)
    omega
  · refine ⟨(v &&& (v - 1)) == 0, (if_neg hz).trans (if_neg hv), ?_⟩
    have h1 := C53_power_of_two v
    have hz' : (v != 0) = true := by simpa using hz
    have h2 : isPowerOfTwo v = ((v &&& (v - 1)) == 0) := by
      unfold isPowerOfTwo
      rw [hz', Bool.true_and]
    rw [← h2, h1]
    have hw : w ≠ 0 := by
      rintro rfl
      exact hz (BitVec.eq_nil v)
    have hmin : v.toNat ≠ 2 ^ (w - 1) := by
      intro e
      apply hv
      apply BitVec.eq_of_toNat_eq
      rw [e, BitVec.toNat_intMin]
      have : 2 ^ (w - 1) < 2 ^ w := Nat.pow_lt_pow_right (by decide) (by omega)
      exact (Nat.mod_eq_of_lt this).symm
    have hlt := v.isLt
    have h2w : 2 ^ w = 2 * 2 ^ (w - 1) := by
      rw [← Nat.pow_succ']; congr 1; omega
    constructor
    · rintro ⟨k, hk⟩
      refine ⟨k, ?_⟩
      have hk1 : k < w := by
        rw [hk] at hlt
        exact (Nat.pow_lt_pow_iff_right (by decide)).1 hlt
      have hk2 : k ≠ w - 1 := by
        rintro rfl; exact hmin hk
      have : 2 ^ k < 2 ^ (w - 1) := Nat.pow_lt_pow_right (by decide) (by omega)
      rw [BitVec.toInt_eq_toNat_of_lt (by omega), hk]
      simp
    · rintro ⟨k, hk⟩
      refine ⟨k, ?_⟩
      have hp : (0 : Int) < 2 ^ k := Int.pow_pos (by decide)
      rw [BitVec.toInt_eq_toNat_cond] at hk
      split at hk
      · have : ((2 ^ k : Nat) : Int) = (2 : Int) ^ k := by simp
        omega
      · omega

example : isPowerOfTwoSigned (64#8) = some true ∧ isPowerOfTwoSigned (-64#8) = some false ∧ isPowerOfTwoSigned (-128#8) = none := by
  decide

/-- Even and odd, for every width but 0, whether the bits are read as unsigned or as signed. -/
theorem C53_even_odd {w : Nat} (v : BitVec (w + 1)) :
    (isEven v = true ↔ 2 ∣ v.toNat) ∧ (isEven v = true ↔ 2 ∣ v.toInt) ∧ isOdd v = !isEven v := by
  have h1 : (1#(w + 1)).toNat = 1 := by
    rw [BitVec.toNat_ofNat]
    exact Nat.mod_eq_of_lt (Nat.one_lt_two_pow (by omega))
  have hand : (v &&& 1#(w + 1)).toNat = v.toNat % 2 := by
    rw [BitVec.toNat_and, h1]
    exact Nat.and_one_is_mod _
  have he : isEven v = true ↔ 2 ∣ v.toNat := by
    unfold isEven
    rw [beq_iff_eq]
    show (v &&& 1#(w + 1)) = 0#(w + 1) ↔ _
    rw [← BitVec.toNat_inj, hand]
    simp only [BitVec.toNat_ofNat, Nat.zero_mod]
    omega
  have ho : isOdd v = true ↔ ¬ 2 ∣ v.toNat := by
    unfold isOdd
    rw [beq_iff_eq]
    show (v &&& 1#(w + 1)) = 1#(w + 1) ↔ _
    rw [← BitVec.toNat_inj, hand, h1]
    omega
  refine ⟨he, ?_, ?_⟩
  · rw [he, BitVec.toInt_eq_toNat_cond]
    have : 2 ^ (w + 1) = 2 * 2 ^ w := Nat.pow_succ'
    split <;> omega
  · rw [Bool.eq_iff_iff, ho, ← he]
    simp

example : isEven (-2#8) = true ∧ (-2#8).toInt = -2 ∧ isOdd (255#8) = true := by decide

variable {K : Type} [Field K] [LinearOrder K] [IsStrictOrderedRing K]

/-! ## C54 -/

/-- The clamped value lies in the interval, is the value iff that is inside, and no point of the interval is nearer. -/
theorem C54_clamp (v min max : K) (h : min ≤ max) :
    (min ≤ clamp v min max ∧ clamp v min max ≤ max) ∧ (clamp v min max = v ↔ min ≤ v ∧ v ≤ max) ∧
    (∀ u, min ≤ u → u ≤ max → |v - clamp v min max| ≤ |v - u|) ∧ clamp (clamp v min max) min max = clamp v min max := by
  have hin : ∀ u, min ≤ u → u ≤ max → clamp u min max = u := by
    intro u h1 h2
    unfold clamp
    rw [if_neg (not_lt.2 h1), if_neg (not_lt.2 h2)]
  have hb : min ≤ clamp v min max ∧ clamp v min max ≤ max := by
    unfold clamp
    split
    · exact ⟨le_rfl, h⟩
    · rename_i h1
      split
      · exact ⟨h, le_rfl⟩
      · rename_i h2; exact ⟨not_lt.1 h1, not_lt.1 h2⟩
  refine ⟨hb, ⟨fun e => e ▸ hb, fun h => hin v h.1 h.2⟩, ?_, hin _ hb.1 hb.2⟩
  intro u h1 h2
  unfold clamp
  split
  · rename_i hv
    rw [abs_of_neg (by linarith), abs_of_neg (by linarith)]; linarith
  · split
    · rename_i hv
      rw [abs_of_pos (by linarith), abs_of_nonneg (by linarith)]; linarith
    · rw [sub_self, abs_zero]; exact abs_nonneg _

example : clamp (7 : ℚ) 1 5 = 5 ∧ clamp (3 : ℚ) 1 5 = 3 ∧ clamp (-2 : ℚ) 1 5 = 1 := by decide +kernel

theorem C54_clamp_mono (v u min max : K) (h : min ≤ max) (hvu : v ≤ u) : clamp v min max ≤ clamp u min max := by
  unfold clamp
  split <;> split <;> (try split) <;> (try split) <;> linarith

example : clamp (0 : ℚ) 1 5 ≤ clamp (3 : ℚ) 1 5 := by decide +kernel

/-- Bounds: the violation is what clamping takes away, values are within iff there is none. -/
theorem C54_bounds (b : Bounds K) (v : K) (h : b.lower ≤ b.upper) :
    b.getViolation v = v - b.clampIn v ∧ (b.isWithin v = true ↔ b.getViolation v = 0) ∧
    (b.isWithin v = true ↔ b.clampIn v = v) ∧ (b.getViolation v < 0 ↔ v < b.lower) ∧ (b.getViolation v > 0 ↔ v > b.upper) := by
  have h1 : b.getViolation v = v - b.clampIn v := by
    unfold Bounds.getViolation Bounds.clampIn clamp
    split
    · rfl
    · split
      · rfl
      · rw [sub_self]
  have h2 : b.isWithin v = true ↔ b.clampIn v = v := by
    unfold Bounds.isWithin Bounds.clampIn
    rw [(C54_clamp v _ _ h).2.1]
    simp
  refine ⟨h1, ?_, h2, ?_, ?_⟩
  · rw [h2, h1, sub_eq_zero]
    exact eq_comm
  · unfold Bounds.getViolation
    split
    · rename_i hv; exact ⟨fun _ => hv, fun _ => by linarith⟩
    · rename_i hv
      split
      · constructor
        · intro _; linarith
        · intro h'; exact absurd h' hv
      · exact ⟨fun h' => absurd h' (lt_irrefl _), fun h' => absurd h' hv⟩
  · unfold Bounds.getViolation
    split
    · rename_i hv
      constructor
      · intro _; linarith
      · intro _; linarith
    · split
      · rename_i hv; exact ⟨fun _ => hv, fun _ => by linarith⟩
      · rename_i hv; exact ⟨fun h' => absurd h' (lt_irrefl _), fun h' => absurd h' hv⟩

example : (⟨1, 5⟩ : Bounds ℚ).getViolation 7 = 2 ∧ (⟨1, 5⟩ : Bounds ℚ).getViolation (-1) = -2 := by decide +kernel

/-- Negated bounds are the mirror image. -/
theorem C54_neg (b : Bounds K) (v : K) : b.neg.isWithin v = b.isWithin (-v) ∧
    (b.lower ≤ b.upper → b.neg.clampIn v = -b.clampIn (-v)) ∧ b.neg.neg = b ∧ b.neg.range = b.range := by
  refine ⟨?_, ?_, ?_, ?_⟩
  · unfold Bounds.isWithin Bounds.neg
    rw [Bool.eq_iff_iff]
    simp only [ge_iff_le, Bool.and_eq_true, decide_eq_true_eq]
    constructor
    · rintro ⟨h1, h2⟩; constructor <;> linarith
    · rintro ⟨h1, h2⟩; constructor <;> linarith
  · intro h
    unfold Bounds.clampIn Bounds.neg clamp
    dsimp only
    split_ifs <;> linarith
  · simp [Bounds.neg]
  · simp only [Bounds.range, Bounds.neg]; ring

example : (⟨1, 5⟩ : Bounds ℚ).neg = ⟨-5, -1⟩ := by decide +kernel

/-! ## C55 -/

theorem limitTransfer_bounds {x r : K} (hx : 0 < x) (hr : 0 < r) : 0 < limitTransfer x r ∧ limitTransfer x r < r := by
  have hs : 0 < x + r := by linarith
  have he : limitTransfer x r = r * x / (x + r) := by
    unfold limitTransfer
    field_simp
    ring
  have h2 : r * r / (x + r) > 0 := div_pos (mul_pos hr hr) hs
  refine ⟨?_, ?_⟩
  · rw [he]; exact div_pos (mul_pos hr hx) hs
  · unfold limitTransfer; linarith

theorem limitTransfer_mono {x y r : K} (hx : 0 < x) (hxy : x < y) (hr : 0 < r) : limitTransfer x r < limitTransfer y r := by
  unfold limitTransfer
  have h := div_lt_div_of_pos_left (mul_pos hr hr) (show 0 < x + r by linarith) (show x + r < y + r by linarith)
  linarith

/-- The result is strictly inside, and it is the value itself when that is far enough from both ends. -/
theorem C55_inside (v min max b : K) (h : min < max) (hb : 0 < b) (hb2 : b ≤ 1 / 2) :
    (min < softClamp v min max b ∧ softClamp v min max b < max) ∧
    (b * (max - min) ≤ v - min → b * (max - min) ≤ max - v → softClamp v min max b = v) := by
  have hd : 0 < max - min := by linarith
  have hr : 0 < b * (max - min) := mul_pos hb hd
  have hr2 : b * (max - min) ≤ (max - min) / 2 := by nlinarith
  unfold softClamp
  generalize b * (max - min) = r at *
  dsimp only
  constructor
  · split
    · rename_i h1
      obtain ⟨h2, h3⟩ := limitTransfer_bounds (show 0 < v - max + r by linarith) hr
      constructor <;> linarith
    · rename_i h1
      split
      · rename_i h4
        obtain ⟨h2, h3⟩ := limitTransfer_bounds (show 0 < min + r - v by linarith) hr
        constructor <;> linarith
      · rename_i h4
        simp only [not_lt] at h1 h4
        constructor <;> linarith
  · intro h1 h2
    rw [if_neg (by linarith), if_neg (by linarith)]

example : softClamp (100 : ℚ) 0 10 (1 / 10) = 9 + 91 / 92 ∧ softClamp (5 : ℚ) 0 10 (1 / 10) = 5 := by
  unfold softClamp limitTransfer; norm_num

/-- It is strictly increasing. -/
theorem C55_increasing (v u min max b : K) (h : min < max) (hb : 0 < b) (hb2 : b ≤ 1 / 2) (hvu : v < u) :
    softClamp v min max b < softClamp u min max b := by
  have hd : 0 < max - min := by linarith
  have hr : 0 < b * (max - min) := mul_pos hb hd
  have hr2 : b * (max - min) ≤ (max - min) / 2 := by nlinarith
  unfold softClamp
  generalize b * (max - min) = r at *
  dsimp only
  by_cases hv1 : v > max - r
  · rw [if_pos hv1, if_pos (by linarith)]
    have := limitTransfer_mono (show 0 < v - max + r by linarith) (show v - max + r < u - max + r by linarith) hr
    linarith
  · rw [if_neg hv1]
    rw [gt_iff_lt, not_lt] at hv1
    by_cases hu1 : u > max - r
    · rw [if_pos hu1]
      have h2 := (limitTransfer_bounds (show 0 < u - max + r by linarith) hr).1
      split
      · rename_i h4
        have h3 := (limitTransfer_bounds (show 0 < min + r - v by linarith) hr).1
        linarith
      · linarith
    · rw [if_neg hu1]
      rw [gt_iff_lt, not_lt] at hu1
      by_cases hv2 : v < min + r
      · rw [if_pos hv2]
        by_cases hu2 : u < min + r
        · rw [if_pos hu2]
          have := limitTransfer_mono (show 0 < min + r - u by linarith) (show min + r - u < min + r - v by linarith) hr
          linarith
        · rw [if_neg hu2]
          have h3 := (limitTransfer_bounds (show 0 < min + r - v by linarith) hr).1
          linarith
      · rw [if_neg hv2, if_neg (by linarith)]
        exact hvu

example : (0 : ℚ) < 10 ∧ (0 : ℚ) < 1 / 10 ∧ (1 / 10 : ℚ) ≤ 1 / 2 := by norm_num

/-! ## C56 -/

section Floor

variable [FloorRing K]

theorem fmod_nonneg {a b : K} (ha : 0 ≤ a) (hb : 0 < b) : ∃ k : Int, 0 ≤ k ∧ fmod a b = a - k * b ∧ 0 ≤ fmod a b ∧ fmod a b < b := by
  have h : a / b ≥ 0 := div_nonneg ha hb.le
  have e : fmod a b = a - (⌊a / b⌋ : K) * b := by unfold fmod; rw [if_pos h]
  refine ⟨⌊a / b⌋, Int.floor_nonneg.2 h, e, ?_, ?_⟩
  · rw [e]
    have := (le_div_iff₀ hb).1 (Int.floor_le (a / b))
    linarith
  · rw [e]
    have := (div_lt_iff₀ hb).1 (Int.lt_floor_add_one (a / b))
    linarith

theorem fmod_neg {a b : K} (ha : a < 0) (hb : 0 < b) : ∃ k : Int, k ≤ 0 ∧ fmod a b = a - k * b ∧ -b < fmod a b ∧ fmod a b ≤ 0 := by
  have h : a / b < 0 := div_neg_of_neg_of_pos ha hb
  have e : fmod a b = a - (⌈a / b⌉ : K) * b := by unfold fmod; rw [if_neg (by simpa using h)]
  refine ⟨⌈a / b⌉, Int.ceil_le.2 (by simpa using h.le), e, ?_, ?_⟩
  · rw [e]
    have h1 := Int.ceil_lt_add_one (a / b)
    have h2 := (sub_lt_iff_lt_add.2 h1)
    have := (lt_div_iff₀ hb).1 h2
    linarith
  · rw [e]
    have := (div_le_iff₀ hb).1 (Int.le_ceil (a / b))
    linarith

/-- The wrapped value lies in the range and differs from the value by a whole number of widths; for values not below the range
it is never the upper end. -/
theorem C56_wrap (v lower upper : K) (h : lower < upper) :
    (lower ≤ wrap v lower upper ∧ wrap v lower upper ≤ upper) ∧
    (∃ k : Int, wrap v lower upper = v + k * (upper - lower)) ∧
    (lower ≤ v → wrap v lower upper < upper) ∧ (v < lower → lower < wrap v lower upper) := by
  have hb : 0 < upper - lower := by linarith
  unfold wrap
  by_cases hv : v - lower ≥ 0
  · rw [if_pos hv]
    obtain ⟨k, _, e, h1, h2⟩ := fmod_nonneg hv hb
    refine ⟨⟨by linarith, by linarith⟩, ⟨-k, ?_⟩, fun _ => by linarith, fun h' => by linarith⟩
    rw [e]; push_cast; ring
  · rw [if_neg hv]
    obtain ⟨k, _, e, h1, h2⟩ := fmod_neg (not_le.1 hv) hb
    refine ⟨⟨by linarith, by linarith⟩, ⟨-k + 1, ?_⟩, fun h' => absurd (by linarith) hv, fun _ => by linarith⟩
    rw [e]; push_cast; ring

example : wrap (7 : ℚ) 0 3 = 1 ∧ wrap (-1 : ℚ) 0 3 = 2 := by decide +kernel

/-- Values inside stay as they are. -/
theorem C56_wrap_id (v lower upper : K) (h1 : lower ≤ v) (h2 : v < upper) : wrap v lower upper = v := by
  obtain ⟨⟨a1, a2⟩, ⟨k, e⟩, a3, _⟩ := C56_wrap v lower upper (lt_of_le_of_lt h1 h2)
  have hb : 0 < upper - lower := by linarith
  have a3 := a3 h1
  have hk : k = 0 := by
    by_contra hne
    rcases lt_or_gt_of_ne hne with hk | hk
    · have : (k : K) ≤ -1 := by exact_mod_cast (show k ≤ -1 by omega)
      nlinarith
    · have : (1 : K) ≤ k := by exact_mod_cast (show 1 ≤ k by omega)
      nlinarith
  rw [e, hk]; simp

example : wrap (2 : ℚ) 1 3 = 2 := by decide +kernel

/-- So it is the value modulo the width, from `lower` to below `upper`, exactly when that is not `lower` from below: a value a
whole number of widths below the range goes to the upper end. -/
theorem C56_upper_end (v lower upper : K) (h : lower < upper) :
    wrap v lower upper = upper ↔ ∃ n : Nat, 0 < n ∧ v = lower - n * (upper - lower) := by
  have hb : 0 < upper - lower := by linarith
  constructor
  · intro e
    obtain ⟨_, ⟨k, ek⟩, a3, _⟩ := C56_wrap v lower upper h
    have hv : v < lower := by
      by_contra hv
      exact absurd e (ne_of_lt (a3 (not_lt.1 hv)))
    rw [e] at ek
    have hv' : v = lower - ((k : K) - 1) * (upper - lower) := by linarith [ek]
    have hk : 1 < k := by
      by_contra hk
      have : (k : K) ≤ 1 := by exact_mod_cast (show k ≤ 1 by omega)
      nlinarith
    refine ⟨(k - 1).toNat, by omega, ?_⟩
    have : (((k - 1).toNat : Nat) : K) = (k : K) - 1 := by
      have : (((k - 1).toNat : Int) : K) = ((k - 1 : Int) : K) := by rw [Int.toNat_of_nonneg (by omega)]
      push_cast at this
      simpa using this
    rw [this]
    exact hv'
  · rintro ⟨n, hn, rfl⟩
    have hn' : (0 : K) < n := by exact_mod_cast hn
    have hneg : lower - n * (upper - lower) - lower < 0 := by nlinarith
    unfold wrap
    rw [if_neg (not_le.2 hneg)]
    have : fmod (lower - n * (upper - lower) - lower) (upper - lower) = 0 := by
      unfold fmod
      have e : (lower - n * (upper - lower) - lower) / (upper - lower) = ((-(n : Int) : Int) : K) := by
        field_simp; push_cast; ring
      rw [e, Int.ceil_intCast, Int.floor_intCast, ite_self]
      push_cast; ring
    rw [this, zero_add]

example : wrap (-3 : ℚ) 0 3 = 3 ∧ wrap (3 : ℚ) 0 3 = 0 := by decide +kernel

/-- Wrapping is therefore not a function of the value modulo the width. -/
theorem C56_periodic_refuted : wrap (-3 : ℚ) 0 3 ≠ wrap (-3 + 3 : ℚ) 0 3 := by decide +kernel

/-! ## C57 -/

/-- On non-negative values the wave has period 2, with 1 on the first half of it and -1 on the second. -/
theorem C57_square_wave (v : K) (h : 0 ≤ v) : squareWave (v + 2) = squareWave v ∧
    (∀ n : Nat, 2 * n ≤ v → v < 2 * n + 1 → squareWave v = 1) ∧ (∀ n : Nat, 2 * n + 1 ≤ v → v < 2 * n + 2 → squareWave v = -1) := by
  have key : ∀ (u : K) (n : Nat), 0 ≤ u → 2 * (n : K) ≤ u → u < 2 * n + 2 → fmod u 2 = u - 2 * n := by
    intro u n h0 h1 h2
    unfold fmod
    rw [if_pos (div_nonneg h0 (by norm_num))]
    have : ⌊u / 2⌋ = (n : Int) := by
      rw [Int.floor_eq_iff]
      constructor
      · rw [le_div_iff₀ (by norm_num)]; push_cast; linarith
      · rw [div_lt_iff₀ (by norm_num)]; push_cast; linarith
    rw [this]; push_cast; ring
  refine ⟨?_, ?_, ?_⟩
  · obtain ⟨k, hk, e, h1, h2⟩ := fmod_nonneg h (show (0 : K) < 2 by norm_num)
    have hkn : ((k.toNat : Nat) : K) = (k : K) := by
      rw [← Int.cast_natCast, Int.toNat_of_nonneg hk]
    have e1 := key v k.toNat h (by rw [hkn]; linarith) (by rw [hkn]; linarith)
    have e2 := key (v + 2) (k.toNat + 1) (by linarith) (by push_cast; rw [hkn]; linarith) (by push_cast; rw [hkn]; linarith)
    unfold squareWave
    rw [e1, e2]
    push_cast
    have : v + 2 - 2 * ((k.toNat : K) + 1) = v - 2 * k.toNat := by ring
    rw [this]
  · intro n h1 h2
    unfold squareWave
    rw [key v n h h1 (by linarith), if_pos (by linarith)]
  · intro n h1 h2
    unfold squareWave
    rw [key v n h (by linarith) h2, if_neg (by linarith)]

example : squareWave (1 / 2 : ℚ) = 1 ∧ squareWave (3 / 2 : ℚ) = -1 ∧ squareWave (5 / 2 : ℚ) = 1 := by decide +kernel

/-- On negative values it is always 1. -/
theorem C57_negative (v : K) (h : v < 0) : squareWave v = 1 := by
  obtain ⟨_, _, _, _, h2⟩ := fmod_neg h (show (0 : K) < 2 by norm_num)
  unfold squareWave
  rw [if_pos (by linarith)]

theorem C57_periodic_refuted : ¬ ∀ v : ℚ, squareWave (v + 2) = squareWave v := by
  intro h
  exact absurd (h (-1 / 2)) (by decide +kernel)

end Floor

/-! ## C76 -/

theorem C76_inverse (pi v : K) (hpi : pi ≠ 0) : radToDeg pi (degToRad pi v) = v ∧ degToRad pi (radToDeg pi v) = v := by
  unfold radToDeg degToRad
  constructor <;> field_simp

example : degToRad (22 / 7 : ℚ) 180 = 22 / 7 ∧ radToDeg (22 / 7 : ℚ) (22 / 7) = 180 := by decide +kernel

theorem convertAngle_scale (pi : K) (hpi : 0 < pi) (u t : AngleUnit) : ∃ c, 0 < c ∧ ∀ v, convertAngle pi u t v = c * v := by
  cases u <;> cases t
  · exact ⟨1, by norm_num, fun v => (one_mul v).symm⟩
  · exact ⟨pi / 180, by positivity, fun v => rfl⟩
  · exact ⟨180 / pi, by positivity, fun v => rfl⟩
  · exact ⟨1, by norm_num, fun v => (one_mul v).symm⟩

/-- Converting an angle and back gives the same angle, converting keeps both readings, and goes well with comparison, sums,
differences, negation and scaling. -/
theorem C76_convert (pi : K) (hpi : 0 < pi) {u : AngleUnit} (t : AngleUnit) (a b : Angle u K) (s : K) :
    (a.convert pi t).convert pi u = a ∧ (a.convert pi t).radValue pi = a.radValue pi ∧ (a.convert pi t).degValue pi = a.degValue pi ∧
    ((a.convert pi t).lt (b.convert pi t) = a.lt b) ∧ ((a.convert pi t).eq (b.convert pi t) = a.eq b) ∧
    (a.add b).convert pi t = (a.convert pi t).add (b.convert pi t) ∧ (a.sub b).convert pi t = (a.convert pi t).sub (b.convert pi t) ∧
    a.neg.convert pi t = (a.convert pi t).neg ∧ (a.smul s).convert pi t = (a.convert pi t).smul s ∧
    (a.sdiv s).convert pi t = (a.convert pi t).sdiv s := by
  have hne := hpi.ne'
  obtain ⟨c, hc, e⟩ := convertAngle_scale pi hpi u t
  have hback : ∀ v, convertAngle pi t u (convertAngle pi u t v) = v := by
    intro v
    cases u <;> cases t <;> simp only [convertAngle, (C76_inverse pi _ hne).1, (C76_inverse pi _ hne).2]
  refine ⟨?_, ?_, ?_, ?_, ?_, ?_, ?_, ?_, ?_, ?_⟩
  · simp only [Angle.convert, hback]
  · cases u <;> cases t <;> simp only [Angle.radValue, Angle.convert, convertAngle, (C76_inverse pi _ hne).2]
  · cases u <;> cases t <;> simp only [Angle.degValue, Angle.convert, convertAngle, (C76_inverse pi _ hne).1]
  · unfold Angle.lt Angle.convert
    rw [decide_eq_decide, e, e]
    exact mul_lt_mul_iff_right₀ hc
  · unfold Angle.eq Angle.convert
    rw [decide_eq_decide, e, e]
    exact mul_right_inj' hc.ne'
  all_goals
    simp only [Angle.convert, Angle.add, Angle.sub, Angle.neg, Angle.smul, Angle.sdiv, e]
    congr 1
    ring

example : ((⟨180⟩ : Angle .degrees ℚ).convert (22 / 7) .radians).value = 22 / 7 := by decide +kernel

/-! ## C81 -/

section
variable {K : Type} [Field K] [LinearOrder K] [IsStrictOrderedRing K]

/-- A value equals itself, and with a tolerance of zero nothing else. -/
theorem C81_refl (a e : K) (he : 0 ≤ e) : equalsRel a a e = true ∧ ∀ b, equalsRel a b 0 = true ↔ a = b := by
  constructor
  · simp [equalsRel, mul_nonneg (abs_nonneg a) he]
  · intro b
    simp [equalsRel, sub_eq_zero]

/-- The tolerance is relative: scaling both values, or changing both signs, changes nothing. -/
theorem C81_scale (a b e k : K) (hk : k ≠ 0) : equalsRel (k * a) (k * b) e = equalsRel a b e := by
  have hp : 0 < |k| := abs_pos.2 hk
  simp only [equalsRel, ← mul_sub, abs_mul, mul_assoc, mul_le_mul_iff_right₀ hp]

/-- For a positive value exactly the numbers of an interval around it count as equal. -/
theorem C81_interval (a b e : K) (ha : 0 ≤ a) : equalsRel a b e = true ↔ a * (1 - e) ≤ b ∧ b ≤ a * (1 + e) := by
  simp only [equalsRel, decide_eq_true_eq, abs_of_nonneg ha, abs_le]
  constructor
  · rintro ⟨h1, h2⟩; constructor <;> linarith
  · rintro ⟨h1, h2⟩; constructor <;> linarith

/-- Only zero equals zero, whatever the tolerance. -/
theorem C81_zero (b e : K) : equalsRel 0 b e = true ↔ b = 0 := by
  simp [equalsRel]

/-- Comparing the other way round needs a slightly larger tolerance. -/
theorem C81_symm_partial (a b e : K) (h1 : e < 1) (h : equalsRel a b e = true) : equalsRel b a (e / (1 - e)) = true := by
  simp only [equalsRel, decide_eq_true_eq] at h ⊢
  have hd : 0 < 1 - e := by linarith
  have hb : |a| * (1 - e) ≤ |b| := by
    have := abs_sub_abs_le_abs_sub a b
    linarith
  rw [abs_sub_comm, ← mul_div_assoc, le_div_iff₀ hd]
  by_cases he : 0 ≤ e
  · nlinarith [mul_le_mul_of_nonneg_right hb he, mul_le_mul_of_nonneg_right h hd.le]
  · have h0 : |a| * e ≤ 0 := mul_nonpos_of_nonneg_of_nonpos (abs_nonneg a) (le_of_lt (not_le.1 he))
    have h2 : |a - b| = 0 := le_antisymm (h.trans h0) (abs_nonneg _)
    have h3 : a = b := by rwa [abs_eq_zero, sub_eq_zero] at h2
    subst h3
    have h4 : |a| * e = 0 := le_antisymm h0 (by rw [← h2]; exact h)
    rw [h2, h4]; simp

example : equalsRel (100 : ℚ) 101 (1 / 100) = true ∧ (1 / 100 : ℚ) < 1 := by decide +kernel

/-- It is not symmetric. -/
theorem C81_symm_refuted : ∃ a b e : ℚ, 0 < e ∧ equalsRel b a e = true ∧ equalsRel a b e = false :=
  ⟨100, 101, 995 / 100000, by decide +kernel, by decide +kernel, by decide +kernel⟩

end

end Flut
