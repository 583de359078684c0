import Verif.Model.IntPoly
import Mathlib.Data.Int.ModEq
import Mathlib.Tactic.Linarith
import Mathlib.Tactic.Ring

/-!
# C176: polynomials, running differences and soft limits of whole numbers
-/

namespace Flut

namespace IntPoly

/-- A value of type `int`. -/
def InInt (x : Int) : Prop := -2 ^ 31 ≤ x ∧ x < 2 ^ 31

/-- The sum of the coefficients times the powers of `v`, from the power `i` on. -/
def valueFrom (v : Int) : Nat → List Int → Int
  | _, [] => 0
  | i, c :: r => c * v ^ i + valueFrom v (i + 1) r

/-- The value of a polynomial. -/
def value (cs : List Int) (v : Int) : Int := valueFrom v 0 cs

theorem chk_ok {x : Int} (h : InInt x) : chk x = .ok x := if_pos h

theorem chk_ub {x : Int} (h : ¬ InInt x) : chk x = .ub := if_neg h

theorem polyLoop_ok (v : Int) (cs : List Int) (a : Int) (i : Nat)
    (ht : ∀ k c, cs[k]? = some c → InInt (c * v ^ (i + k)))
    (hs : ∀ k ≤ cs.length, InInt (a + valueFrom v i (cs.take k)))
    (hp : ∀ k < cs.length, InInt (v ^ (i + k + 1))) :
    polyLoop v a (v ^ i) cs = .ok (a + valueFrom v i cs) := by
  induction cs generalizing a i with
  | nil => simp [polyLoop, valueFrom]
  | cons c r ih =>
    have h1 : InInt (v ^ i * c) := by
      have := ht 0 c rfl
      rwa [Nat.add_zero, Int.mul_comm] at this
    have h2 : InInt (a + v ^ i * c) := by
      have := hs 1 (by simp)
      rwa [List.take_succ_cons, List.take_zero, valueFrom, valueFrom, Int.add_zero, Int.mul_comm] at this
    have h3 : InInt (v ^ i * v) := by
      have := hp 0 (by simp)
      rwa [Nat.add_zero, pow_succ] at this
    simp only [polyLoop, chk_ok h1, chk_ok h2, chk_ok h3, Res.bind_ok]
    rw [← pow_succ, ih]
    · rw [valueFrom]
      congr 1
      ring
    · intro k c' hk
      have := ht (k + 1) c' hk
      rwa [(by omega : i + (k + 1) = i + 1 + k)] at this
    · intro k hk
      have := hs (k + 1) (by simpa using hk)
      rwa [List.take_succ_cons, valueFrom, ← Int.add_assoc, Int.mul_comm c] at this
    · intro k hk
      have := hp (k + 1) (by simpa using hk)
      rwa [(by omega : i + (k + 1) + 1 = i + 1 + k + 1)] at this

/-- C176: a polynomial has the right value at `v`, if its terms and their sums are in range, and so are the powers of `v` up to one more
than the degree. -/
theorem C176_polynomial_partial (c : Int) (cs : List Int) (v : Int)
    (ht : ∀ k d, cs[k]? = some d → InInt (d * v ^ (k + 1)))
    (hs : ∀ k ≤ cs.length, InInt (value (c :: cs.take k) v))
    (hp : ∀ k < cs.length, InInt (v ^ (k + 2))) :
    poly (c :: cs) v = .ok (value (c :: cs) v) := by
  have := polyLoop_ok v cs c 1 (fun k d hk => by rw [Nat.add_comm 1 k]; exact ht k d hk)
    (fun k hk => by have := hs k hk; rwa [value, valueFrom, pow_zero, Int.mul_one] at this)
    (fun k hk => by have := hp k hk; rwa [(by omega : 1 + k + 1 = k + 2)])
  rw [pow_one] at this
  rw [poly, this, value, valueFrom, pow_zero, Int.mul_one]

example : poly [2, -3, 1] 1000 = .ok 997002 ∧ value [2, -3, 1] 1000 = 997002 := by decide

/-- C176 is false of large numbers: a power that is not used is computed as well, and a linear function is undefined from 46341 on,
although its value is in range. -/
theorem C176_polynomial_refuted (v : Int) (hv : 46341 ≤ v) (h2 : v < 2 ^ 31) : InInt (value [0, 1] v) ∧ poly [0, 1] v = .ub := by
  have e : value [0, 1] v = v := by simp [value, valueFrom]
  have hi : InInt v := ⟨by omega, h2⟩
  refine ⟨by rwa [e], ?_⟩
  have hn : ¬ InInt (v * v) := fun h => by
    have := h.2
    nlinarith
  simp only [poly, polyLoop, Int.mul_one, Int.zero_add, chk_ok hi, Res.bind_ok, chk_ub hn]
  rfl

example : InInt (value [0, 1] 65536) ∧ poly [0, 1] 65536 = .ub := C176_polynomial_refuted 65536 (by decide) (by decide)

theorem polyLoopU_value (v : Nat) (cs : List Nat) (a f : Nat) (i : Nat) (ha : a < 2 ^ 32) (hf : (f : Int) ≡ (v : Int) ^ i [ZMOD 2 ^ 32]) :
    polyLoopU v a f cs < 2 ^ 32 ∧
    (polyLoopU v a f cs : Int) ≡ a + valueFrom v i (cs.map Int.ofNat) [ZMOD 2 ^ 32] := by
  induction cs generalizing a f i with
  | nil => exact ⟨ha, by simp [polyLoopU, valueFrom]⟩
  | cons c r ih =>
    have hf' : ((f * v % 2 ^ 32 : Nat) : Int) ≡ (v : Int) ^ (i + 1) [ZMOD 2 ^ 32] := by
      rw [pow_succ]
      push_cast
      exact (Int.mod_modEq _ _).trans (hf.mul_right _)
    obtain ⟨h1, h2⟩ := ih ((a + f * c % 2 ^ 32) % 2 ^ 32) (f * v % 2 ^ 32) (i + 1) (Nat.mod_lt _ (by decide)) hf'
    refine ⟨h1, ?_⟩
    rw [polyLoopU]
    refine h2.trans ?_
    rw [List.map_cons, valueFrom, ← Int.add_assoc]
    refine Int.ModEq.add_right _ ?_
    push_cast
    refine (Int.mod_modEq _ _).trans (Int.ModEq.add_left _ ((Int.mod_modEq _ _).trans ?_))
    rw [Int.mul_comm (Int.ofNat c)]
    exact hf.mul_right _

/-- C176: a polynomial of numbers without sign always has the right value modulo 2^32. -/
theorem C176_unsigned (c : Nat) (cs : List Nat) (v : Nat) (hc : c < 2 ^ 32) :
    ∃ r, polyU (c :: cs) v = .ok r ∧ r < 2 ^ 32 ∧ (r : Int) ≡ value ((c :: cs).map Int.ofNat) v [ZMOD 2 ^ 32] := by
  obtain ⟨h1, h2⟩ := polyLoopU_value v cs c v 1 hc (by rw [pow_one])
  refine ⟨_, rfl, h1, ?_⟩
  rw [List.map_cons, value, valueFrom, pow_zero, Int.mul_one]
  exact h2

example : polyU [0, 1] 65536 = .ok 65536 := by decide

/-- The differences between numbers and the ones before them. -/
def Differences (x0 : Int) (xs ds : List Int) : Prop :=
  ds.length = xs.length ∧ ∀ k x, xs[k]? = some x → x = x0 + (ds.take (k + 1)).sum

/-- C176: the differences that `delta` returns add up to the values, if they are in range. -/
theorem C176_delta (x0 : Int) (xs : List Int) (h : ∀ (k : Nat) (a b : Int), (x0 :: xs)[k]? = some a → xs[k]? = some b → InInt (b - a)) :
    ∃ ds, deltas x0 xs = .ok ds ∧ Differences x0 xs ds := by
  induction xs generalizing x0 with
  | nil => exact ⟨[], rfl, rfl, fun k x hx => by simp at hx⟩
  | cons y r ih =>
    obtain ⟨ds, e, hl, hd⟩ := ih y fun k a b ha hb => h (k + 1) a b ha hb
    refine ⟨(y - x0) :: ds, ?_, by simp [hl], ?_⟩
    · simp only [deltas, chk_ok (h 0 x0 y rfl rfl), Res.bind_ok, e]
    · intro k x hk
      cases k with
      | zero =>
        simp only [List.getElem?_cons_zero, Option.some.injEq] at hk
        simp [hk]
      | succ k =>
        have := hd k x (by simpa using hk)
        rw [List.take_succ_cons, List.sum_cons]
        omega

example : deltas 5 [3, 10, 10] = .ok [-2, 7, 0] := by decide

/-- C176: those of numbers without sign are in range and add up to the values modulo 2^32. -/
theorem C176_delta_unsigned (x0 : Nat) (xs : List Nat) (h0 : x0 < 2 ^ 32) (h : ∀ x ∈ xs, x < 2 ^ 32) :
    (deltasU x0 xs).length = xs.length ∧ (∀ d ∈ deltasU x0 xs, d < 2 ^ 32) ∧
    ∀ (k x : Nat), xs[k]? = some x → x = (x0 + ((deltasU x0 xs).take (k + 1)).sum) % 2 ^ 32 := by
  induction xs generalizing x0 with
  | nil => exact ⟨rfl, fun d hd => by simp [deltasU] at hd, fun k x hx => by simp at hx⟩
  | cons y r ih =>
    have hy := h y List.mem_cons_self
    obtain ⟨hl, hb, hd⟩ := ih y hy fun x hx => h x (List.mem_cons_of_mem _ hx)
    refine ⟨by simp [deltasU, hl], ?_, ?_⟩
    · intro d hdm
      rcases List.mem_cons.mp hdm with rfl | hdm
      · exact Nat.mod_lt _ (by decide)
      · exact hb d hdm
    intro k x hk
    cases k with
    | zero =>
      simp only [List.getElem?_cons_zero, Option.some.injEq] at hk
      subst hk
      simp only [deltasU, List.take_succ_cons, List.take_zero, List.sum_cons, List.sum_nil]
      omega
    | succ k =>
      have := hd k x (by simpa using hk)
      rw [deltasU, List.take_succ_cons, List.sum_cons]
      omega

example : deltasU 5 [8, 8, 3] = [3, 0, 4294967291] := by decide

/-- C176 is false of numbers without sign that get smaller: the difference from 5 to 3 is 4294967294. And differences out of range are
undefined. -/
theorem C176_delta_refuted : deltasU 5 [3] = [4294967294] ∧ deltas (-2 ^ 31) [0] = .ub := by decide

/-- C176: with the boundary 0, `soft_clamp` gives the nearest number in the range, if the differences are in range. -/
theorem C176_soft_clamp_partial (v min max : Int) (hm : min ≤ max) (h1 : InInt v) (h2 : InInt min) (h3 : InInt max) (hw : InInt (max - min))
    (hv : InInt (v - max)) (hv' : InInt (min - v)) :
    softClamp v min max 0 = .ok (if v < min then min else if max < v then max else v) := by
  have h0 : InInt 0 := ⟨by decide, by decide⟩
  have hl : ∀ x, InInt x → x ≠ 0 → limitTransfer x 0 = .ok 0 := by
    intro x hx hne
    simp only [limitTransfer, Int.mul_zero, Int.add_zero, chk_ok h0, chk_ok hx, Res.bind_ok, if_neg hne, Int.zero_tdiv, Int.sub_zero]
  simp only [softClamp, chk_ok hw, Int.zero_mul, chk_ok h0, Int.sub_zero, Int.add_zero, chk_ok h3, chk_ok h2, Res.bind_ok]
  by_cases ha : v > max
  · rw [if_pos ha, if_neg (by omega), if_pos ha]
    simp only [chk_ok hv, Int.add_zero, Res.bind_ok, hl _ hv (by omega), chk_ok h3]
  · rw [if_neg ha]
    by_cases hb : v < min
    · rw [if_pos hb, if_pos hb]
      simp only [chk_ok hv', Int.sub_zero, Res.bind_ok, hl _ hv' (by omega), chk_ok h2]
    · rw [if_neg hb, if_neg hb, if_neg (by omega)]

example : softClamp 12 0 10 0 = .ok 10 ∧ softClamp (-3) 0 10 0 = .ok 0 := by decide

/-- C176 is false of other boundaries, which are at least 1 for whole numbers: in the range from 0 to 10, 0 becomes 5 and 1 stays 1; and in
ranges wider than 46340 nothing outside the middle is defined, because the square of the width is not. -/
theorem C176_soft_clamp_refuted : softClamp 0 0 10 1 = .ok 5 ∧ softClamp 1 0 10 1 = .ok 1 ∧
    ∀ v w, 46341 ≤ w → w < 2 ^ 31 → 0 < v → v ≤ w → softClamp v 0 w 1 = .ub := by
  refine ⟨by decide, by decide, fun v w h1 h2 h3 h4 => ?_⟩
  have hw : InInt w := ⟨by omega, h2⟩
  have h0 : InInt 0 := ⟨by decide, by decide⟩
  have ha : InInt (v - w) := ⟨by omega, by omega⟩
  have hb : InInt (v - w + w) := ⟨by omega, by omega⟩
  have hn : ¬ InInt (w * w) := fun h => by
    have := h.2
    nlinarith
  simp only [softClamp, Int.sub_zero, chk_ok hw, Int.one_mul, Res.bind_ok, Int.sub_self, chk_ok h0, if_pos h3, chk_ok ha, chk_ok hb,
    limitTransfer, chk_ub hn]
  rfl

end IntPoly

end Flut
