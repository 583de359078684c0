import Verif.Model.IntVec
import Mathlib.Tactic.Linarith

/-!
# C175: vectors whose components are of type `int`
-/

namespace Flut

namespace IntVec

/-- A value of type `int`. -/
def InInt (x : Int) : Prop := -2 ^ 31 ≤ x ∧ x < 2 ^ 31

theorem chk_ok {x : Int} (h : InInt x) : chk x = .ok x := if_pos h

/-- Vectors whose components are in range. -/
def InRange (v : Vec3 Int) : Prop := InInt v.x ∧ InInt v.y ∧ InInt v.z

theorem each_ok {v : Vec3 Int} (h : InRange v) : each v.x v.y v.z = .ok v := by
  simp only [each, chk_ok h.1, chk_ok h.2.1, chk_ok h.2.2, Res.bind_ok]

/-- C175: sums of vectors and multiples by whole numbers are exact if they are in range. -/
theorem C175_sum (v w : Vec3 Int) (s : Int) :
    (InRange ⟨v.x + w.x, v.y + w.y, v.z + w.z⟩ → add v w = .ok ⟨v.x + w.x, v.y + w.y, v.z + w.z⟩) ∧
    (InRange ⟨v.x * s, v.y * s, v.z * s⟩ → scale v s = .ok ⟨v.x * s, v.y * s, v.z * s⟩) :=
  ⟨fun h => each_ok h, fun h => each_ok h⟩

theorem squaredLength_ok (v : Vec3 Int) (h : v.x ^ 2 + v.y ^ 2 + v.z ^ 2 < 2 ^ 31) :
    squaredLength v = .ok (v.x ^ 2 + v.y ^ 2 + v.z ^ 2) := by
  have hx := sq_nonneg v.x
  have hy := sq_nonneg v.y
  have hz := sq_nonneg v.z
  simp only [squaredLength, ← pow_two]
  rw [chk_ok ⟨by omega, by omega⟩, Res.bind_ok, chk_ok ⟨by omega, by omega⟩, Res.bind_ok, chk_ok ⟨by omega, by omega⟩, Res.bind_ok,
    chk_ok ⟨by omega, by omega⟩, Res.bind_ok, chk_ok ⟨by omega, by omega⟩]

/-- C175: the squared length is exact, and the length is the Euclidean one without the digits behind the point, if the squared length is
in range. -/
theorem C175_length (v : Vec3 Int) (h : v.x ^ 2 + v.y ^ 2 + v.z ^ 2 < 2 ^ 31) :
    squaredLength v = .ok (v.x ^ 2 + v.y ^ 2 + v.z ^ 2) ∧
    ∃ l, length v = .ok l ∧ 0 ≤ l ∧ l ^ 2 ≤ v.x ^ 2 + v.y ^ 2 + v.z ^ 2 ∧ v.x ^ 2 + v.y ^ 2 + v.z ^ 2 < (l + 1) ^ 2 := by
  have h0 : 0 ≤ v.x ^ 2 + v.y ^ 2 + v.z ^ 2 := by
    have hx := sq_nonneg v.x
    have hy := sq_nonneg v.y
    have hz := sq_nonneg v.z
    omega
  refine ⟨squaredLength_ok v h, ?_⟩
  obtain ⟨n, hn⟩ := Int.eq_ofNat_of_zero_le h0
  refine ⟨Nat.sqrt n, ?_, by omega, ?_, ?_⟩
  · simp [length, squaredLength_ok v h, hn]
  · rw [hn]
    exact_mod_cast Nat.sqrt_le' n
  · rw [hn]
    exact_mod_cast Nat.lt_succ_sqrt' n

example : length ⟨1, 2, 3⟩ = .ok 3 := by decide +kernel

theorem inv_large {s : Int} (h : 1 < s ∨ s < -1) : inv s = .ok 0 := by
  have : Int.tdiv 1 s = 0 := by
    rcases h with h | h
    · exact Int.tdiv_eq_zero_of_lt (by decide) h
    · obtain ⟨t, rfl⟩ : ∃ t, s = -t := ⟨-s, by omega⟩
      rw [Int.tdiv_neg, Int.tdiv_eq_zero_of_lt (by decide) (by omega)]
      rfl
  unfold inv
  rw [if_neg (by omega), this]
  decide

theorem scale_zero (v : Vec3 Int) : scale v 0 = .ok ⟨0, 0, 0⟩ := by
  simp only [scale, Int.mul_zero]
  decide

/-- C175 is false of division: every vector divided by a number other than 1 and -1 is the null vector, or undefined if the number is
0. -/
theorem C175_divide_refuted (v : Vec3 Int) (s : Int) :
    (1 < s ∨ s < -1 → divide v s = .ok ⟨0, 0, 0⟩) ∧ divide v 0 = .ub := by
  constructor
  · intro h
    simp only [divide, inv_large h, Res.bind_ok, scale_zero]
  · rfl

/-- Divided by 1 it is itself. -/
theorem C175_divide_one (v : Vec3 Int) (h : InRange v) : divide v 1 = .ok v := by
  have : inv 1 = .ok 1 := by decide
  simp only [divide, this, Res.bind_ok, scale, Int.mul_one]
  exact each_ok h

/-- C175 is false of `normalize`: every vector with a length of 2 or more becomes the null vector. -/
theorem C175_normalize_refuted (v : Vec3 Int) (h : v.x ^ 2 + v.y ^ 2 + v.z ^ 2 < 2 ^ 31) (h4 : 4 ≤ v.x ^ 2 + v.y ^ 2 + v.z ^ 2) :
    normalized v = .ok ⟨0, 0, 0⟩ := by
  obtain ⟨-, l, hl, h0, h1, h2⟩ := C175_length v h
  have hl2 : 1 < l := by
    by_contra hc
    have : l = 0 ∨ l = 1 := by omega
    rcases this with rfl | rfl <;> norm_num at h2 <;> omega
  simp only [normalized, hl, Res.bind_ok]
  rw [if_pos (by omega), inv_large (.inl hl2)]
  exact scale_zero v

example : normalized ⟨0, 5, 0⟩ = .ok ⟨0, 0, 0⟩ ∧ divide ⟨4, 6, 8⟩ 2 = .ok ⟨0, 0, 0⟩ := by decide +kernel

/-- C175: shorter vectors are left as they are. -/
theorem C175_normalize_short (v : Vec3 Int) (h : v.x ^ 2 + v.y ^ 2 + v.z ^ 2 < 4) : normalized v = .ok v := by
  obtain ⟨-, l, hl, h0, h1, h2⟩ := C175_length v (by omega)
  have : l = 0 ∨ l = 1 := by
    by_contra hc
    have : 2 ≤ l := by omega
    nlinarith
  simp only [normalized, hl, Res.bind_ok]
  rcases this with rfl | rfl
  · rfl
  · have h1 : inv 1 = .ok 1 := by decide
    rw [if_pos (by decide), h1]
    simp only [Res.bind_ok, scale, Int.mul_one]
    have hx := sq_nonneg v.x
    have hy := sq_nonneg v.y
    have hz := sq_nonneg v.z
    have key : ∀ a : Int, a ^ 2 < 4 → InInt a := fun a ha => ⟨by nlinarith, by nlinarith⟩
    exact each_ok ⟨key _ (by omega), key _ (by omega), key _ (by omega)⟩

end IntVec

end Flut
