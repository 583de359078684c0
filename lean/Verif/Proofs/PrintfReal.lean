import Verif.Model.Printf
import Verif.Spec.Printf
import Verif.Props.ReportText
import Verif.Proofs.StreamReal

/-! # Lemmas on real numbers in formatted text -/

namespace Flut

open Spec

theorem natStr_base (n : Nat) : PrintfConv.baseStrF 10 false (n + 1) n = natStr n := by
  unfold natStr
  have : ∀ fuel n, PrintfConv.baseStrF 10 false fuel n = natStrF fuel n := by
    intro fuel
    induction fuel with
    | zero => intro n; rfl
    | succ fuel ih =>
      intro n
      have hd : ∀ d, d < 10 → PrintfConv.digitChar false d = UInt8.ofNat (48 + d) := by
        intro d h
        unfold PrintfConv.digitChar
        rw [if_pos h]
      unfold PrintfConv.baseStrF natStrF
      by_cases h : n < 10
      · rw [if_pos h, if_pos h, hd n h]
      · rw [if_neg h, if_neg h, ih, hd _ (Nat.mod_lt _ (by omega))]
  exact this _ _

theorem lastDigits_spec (p n : Nat) : (PrintfConv.lastDigits p n).length = p ∧ (∀ d ∈ PrintfConv.lastDigits p n, 48 ≤ d.toNat ∧ d.toNat ≤ 57) ∧
    decValue (PrintfConv.lastDigits p n) = n % 10 ^ p := by
  obtain ⟨d3, d4⟩ := natStr_digits (n % 10 ^ p)
  have hmod : n % 10 ^ p < 10 ^ p := Nat.mod_lt _ (by positivity)
  unfold PrintfConv.lastDigits
  by_cases h0 : p = 0
  · subst h0
    simp [decValue, Nat.mod_one]
  · rw [if_neg h0]
    refine ⟨?_, ?_, ?_⟩
    · have := natStr_length (n := n % 10 ^ p) (j := p) (by omega) hmod
      rw [List.length_append, List.length_replicate]
      omega
    · intro d hd
      rcases List.mem_append.1 hd with h | h
      · rw [(List.mem_replicate.1 h).2]; decide
      · exact d3.2 d h
    · rw [decValue_append', decValue_zeros, d4]; omega

theorem sciDigits_spec (p : Nat) {m : ℚ} (h : 0 < m) : 10 ^ p ≤ (PrintfConv.sciDigits p m).1 ∧ (PrintfConv.sciDigits p m).1 < 10 ^ (p + 1) ∧
    ∃ k : Int, (10 : ℚ) ^ k ≤ m ∧ m < 10 ^ (k + 1) ∧
      |((PrintfConv.sciDigits p m).1 : ℚ) * 10 ^ ((PrintfConv.sciDigits p m).2 - p) - m| ≤ 10 ^ (k - p) / 2 := by
  unfold PrintfConv.sciDigits
  rw [if_neg h.ne']
  obtain ⟨e, he⟩ : ∃ e, e = Int.log 10 m := ⟨_, rfl⟩
  have h1 : (10 : ℚ) ^ e ≤ m := by
    have := Int.zpow_log_le_self (b := 10) (by norm_num) h
    rw [he]; exact_mod_cast this
  have h2 : m < (10 : ℚ) ^ (e + 1) := by
    have := Int.lt_zpow_succ_log_self (b := 10) (by norm_num) m
    rw [he]; exact_mod_cast this
  dsimp only
  rw [← he]
  have hu : (0 : ℚ) < 10 ^ (e - p) := zpow_pos (by norm_num) _
  have e1 : (10 : ℚ) ^ e = 10 ^ p * 10 ^ (e - p) := by
    rw [← zpow_natCast, ← zpow_add₀ (by norm_num)]; congr 1; ring
  have e2 : (10 : ℚ) ^ (e + 1) = 10 ^ (p + 1) * 10 ^ (e - p) := by
    rw [← zpow_natCast, ← zpow_add₀ (by norm_num)]; congr 1; push_cast; ring
  have r1 : ((10 ^ p : Nat) : Int) ≤ roundEven (m / 10 ^ (e - p)) := le_roundEven (by push_cast; rw [le_div_iff₀ hu, ← e1]; exact h1)
  have r2 : roundEven (m / 10 ^ (e - p)) ≤ ((10 ^ (p + 1) : Nat) : Int) :=
    roundEven_le (by push_cast; rw [div_le_iff₀ hu, ← e2]; exact h2.le)
  have r3 := roundEven_near (m / 10 ^ (e - p))
  generalize roundEven (m / 10 ^ (e - p)) = r at *
  obtain ⟨n, rfl⟩ : ∃ n : Nat, r = n := ⟨r.toNat, by
    have : (0 : Int) ≤ ((10 ^ p : Nat) : Int) := Int.natCast_nonneg _
    omega⟩
  rw [Int.toNat_natCast]
  have r1' : 10 ^ p ≤ n := by exact_mod_cast r1
  have r2' : n ≤ 10 ^ (p + 1) := by exact_mod_cast r2
  have key : |(n : ℚ) * 10 ^ (e - p) - m| ≤ 10 ^ (e - p) / 2 := by
    have := mul_le_mul_of_nonneg_right r3 hu.le
    push_cast at this
    rw [show (n : ℚ) * 10 ^ (e - p) - m = (n - m / 10 ^ (e - p)) * 10 ^ (e - p) by field_simp, abs_mul, abs_of_pos hu]
    linarith
  split
  · rename_i hn
    subst hn
    refine ⟨le_rfl, Nat.pow_lt_pow_right (by norm_num) (by omega), e, h1, h2, ?_⟩
    have : (((10 ^ p : Nat) : ℚ)) * 10 ^ (e + 1 - p) = ((10 ^ (p + 1) : Nat) : ℚ) * 10 ^ (e - p) := by
      rw [show e + 1 - (p : Int) = 1 + (e - p) by ring, zpow_one_add₀ (by norm_num)]; push_cast; ring
    dsimp only
    rw [this]
    exact key
  · exact ⟨r1', by omega, e, h1, h2, key⟩

theorem showsDigits (p : Nat) {m : ℚ} (h : 0 ≤ m) :
    ShowsDigits p m (natStr ((PrintfConv.sciDigits p m).1 / 10 ^ p)) (PrintfConv.lastDigits p (PrintfConv.sciDigits p m).1) (PrintfConv.sciDigits p m).2 := by
  obtain ⟨l1, l2, l3⟩ := lastDigits_spec p (PrintfConv.sciDigits p m).1
  obtain ⟨d1, d2⟩ := natStr_digits ((PrintfConv.sciDigits p m).1 / 10 ^ p)
  have hval : decValue (natStr ((PrintfConv.sciDigits p m).1 / 10 ^ p) ++ PrintfConv.lastDigits p (PrintfConv.sciDigits p m).1) = (PrintfConv.sciDigits p m).1 := by
    rw [decValue_append', d2, l1, l3]
    exact Nat.div_add_mod' _ _
  have hlt : (PrintfConv.sciDigits p m).1 < 10 ^ (p + 1) := by
    rcases h.eq_or_lt with h | h
    · subst h
      simp [PrintfConv.sciDigits]
    · exact (sciDigits_spec p h).2.1
  refine ⟨?_, l1, ?_, ?_, ?_⟩
  · have h1 : 1 ≤ (natStr ((PrintfConv.sciDigits p m).1 / 10 ^ p)).length := List.length_pos_iff.2 d1.1
    have h2 := natStr_length (n := (PrintfConv.sciDigits p m).1 / 10 ^ p) (j := 1) le_rfl
      (Nat.div_lt_of_lt_mul (by rw [pow_one]; rw [pow_succ] at hlt; exact hlt))
    omega
  · intro d hd
    rcases List.mem_append.1 hd with h | h
    · exact d1.2 d h
    · exact l2 d h
  · intro h0
    rw [hval, h0]
    simp [PrintfConv.sciDigits]
  · intro h0
    have hm : 0 < m := lt_of_le_of_ne h (Ne.symm h0)
    obtain ⟨s1, s2, s3⟩ := sciDigits_spec p hm
    rw [hval]
    refine ⟨?_, s3⟩
    intro e
    rw [e] at d2
    have : 0 < (PrintfConv.sciDigits p m).1 / 10 ^ p := Nat.div_pos s1 (by positivity)
    have : decValue b!"0" = 0 := by decide
    omega

theorem withoutZeros (a b : Str) : WithoutZeros a b (Stream.joinPoint a b) := by
  obtain ⟨k, hk⟩ := Stream.stripZeros_spec b
  refine ⟨Stream.stripZeros b, k, hk, Stream.stripZeros_last b, ?_⟩
  unfold Stream.joinPoint
  by_cases h : Stream.stripZeros b = []
  · simp [h]
  · rw [if_neg h, if_neg (by simpa using h)]

end Flut
