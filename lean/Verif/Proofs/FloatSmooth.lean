import Verif.Model.FloatSmooth
import Verif.Props.FloatDelayer

/-! # Errors of a smooth delayer in floating-point arithmetic -/

namespace Flut

open Spec FloatMath

/-- The error of one sample, in the units of the sum that is kept: six units of the largest sample over a window, and the smallest number. -/
def smoothUnit (M W n : ℚ) : ℚ := 6 * (M * W) / 2 ^ 24 + n

theorem smoothUnit_pos {M W n : ℚ} (hM : 0 ≤ M) (hW : 0 < W) (hn : 0 < n) : 0 < smoothUnit M W n := by unfold smoothUnit; positivity

/-- The sum that is kept after a step within a window. -/
theorem inter_near (W M m n T q t v a I s a' : ℚ) (hW : 0 < W) (hM : 0 ≤ M) (hm : 0 ≤ m) (hm' : (m + 1) * 1000 ≤ 2 ^ 24) (hn : 0 < n) (T0 : 0 ≤ T) (T1 : T ≤ W)
    (q0 : 0 ≤ q) (q1 : q ≤ W) (hq : W ≤ m * q) (hv : |v| ≤ M) (hI : |I| ≤ M * T) (ha : |a - I| ≤ smoothUnit M W n * (1 + m * T / W))
    (ht : |t - (T + q)| ≤ 2 * W / 2 ^ 24) (hs : |s - v * q| ≤ |v * q| / 2 ^ 24 + n / 2) (ha' : |a' - (a + s)| ≤ |a + s| / 2 ^ 24) :
    |a' - (I + v * (t - T))| ≤ smoothUnit M W n * (1 + m * t / W) ∧ |a + s| ≤ 3 * (M * W) + 1 / 1000 * smoothUnit M W n * 2 ^ 24 + n := by
  have hρ := smoothUnit_pos hM hW hn
  have hρe : smoothUnit M W n = 6 * (M * W) / 2 ^ 24 + n := rfl
  generalize smoothUnit M W n = ρ at *
  have P0 : 0 ≤ M * W := by positivity
  have vq : |v * q| ≤ M * W := by rw [abs_mul, abs_of_nonneg q0]; exact mul_le_mul hv q1 q0 hM
  have vt : |v * (t - (T + q))| ≤ 2 * (M * W) / 2 ^ 24 := by
    rw [abs_mul]
    calc |v| * |t - (T + q)| ≤ M * (2 * W / 2 ^ 24) := mul_le_mul hv ht (abs_nonneg _) hM
      _ = _ := by ring
  have It : |I| ≤ M * W := hI.trans (mul_le_mul_of_nonneg_left T1 hM)
  have x1 : m * T / W ≤ m := by rw [div_le_iff₀ hW]; exact mul_le_mul_of_nonneg_left T1 hm
  have grow : m * T / W + 99 / 100 ≤ m * t / W := by
    rw [← sub_nonneg, show m * t / W - (m * T / W + 99 / 100) = (m * (t - T) - 99 / 100 * W) / W by field_simp; ring]
    apply div_nonneg _ hW.le
    have h1 : q - 2 * W / 2 ^ 24 ≤ t - T := by linarith [(abs_le.1 ht).1]
    have h2 := mul_le_mul_of_nonneg_left h1 hm
    have h3 : m * W * 1000 ≤ 2 ^ 24 * W := by
      have := mul_le_mul_of_nonneg_right hm' hW.le
      linarith
    have h4 : m * (q - 2 * W / 2 ^ 24) = m * q - 2 * (m * W) / 2 ^ 24 := by ring
    rw [h4] at h2
    linarith
  have κ1 : ρ * (1 + m * T / W) / 2 ^ 24 ≤ ρ / 1000 := by
    have h1 : ρ * (1 + m * T / W) ≤ ρ * (1 + m) := mul_le_mul_of_nonneg_left (by linarith) hρ.le
    have h2 : ρ * ((m + 1) * 1000) ≤ ρ * 2 ^ 24 := mul_le_mul_of_nonneg_left hm' hρ.le
    linarith
  have g2 : ρ * (1 + m * T / W) + 99 / 100 * ρ ≤ ρ * (1 + m * t / W) := by
    have := mul_le_mul_of_nonneg_left grow hρ.le
    linarith
  generalize ρ * (1 + m * T / W) = κ at *
  generalize ρ * (1 + m * t / W) = κ' at *
  have sum : |a + s| ≤ κ + |I| + (|v * q| + (|v * q| / 2 ^ 24 + n / 2)) := by
    have b1 := abs_add_le a s
    have b2 := abs_sub_le a I 0
    have b3 := abs_sub_le s (v * q) 0
    rw [sub_zero, sub_zero] at b2 b3
    linarith
  have tot : |a' - (I + v * (t - T))| ≤ |a' - (a + s)| + |a - I| + |s - v * q| + |v * (t - (T + q))| := by
    have b1 := abs_sub_le a' (a + s) (I + v * (t - T))
    have b2 : |a + s - (I + v * (t - T))| ≤ |a - I| + |s - v * q| + |v * (t - (T + q))| := by
      rw [show a + s - (I + v * (t - T)) = (a - I) + (s - v * q) - v * (t - (T + q)) by ring]
      exact (abs_sub _ _).trans (by linarith [abs_add_le (a - I) (s - v * q)])
    linarith
  constructor <;> linarith

/-- The average that is stored when a window ends. -/
theorem average_near (W M m n T q t v a I g s a' r : ℚ) (hW : 0 < W) (hM : 0 ≤ M) (hm : 0 ≤ m) (hm' : (m + 1) * 1000 ≤ 2 ^ 24) (hn : 0 < n) (T0 : 0 ≤ T)
    (T1 : T ≤ W) (hv : |v| ≤ M) (hI : |I| ≤ M * T) (ha : |a - I| ≤ smoothUnit M W n * (1 + m * T / W)) (ht : |t - (T + q)| ≤ 2 * W / 2 ^ 24)
    (hg : |g - (W - t + q)| ≤ |W - t + q| / 2 ^ 24) (hs : |s - g * v| ≤ |g * v| / 2 ^ 24 + n / 2) (ha' : |a' - (a + s)| ≤ |a + s| / 2 ^ 24)
    (hr : |r - a' / W| ≤ |a' / W| / 2 ^ 24 + n / 2) :
    |(I + (W - T) * v) / W| ≤ M ∧ |r - (I + (W - T) * v) / W| ≤ (m + 3) * (smoothUnit M W n / W) + n ∧ |g| ≤ 2 * W ∧ |g * v| ≤ 2 * (M * W) ∧
      |a + s| ≤ 3 * (M * W) + 1 / 1000 * smoothUnit M W n * 2 ^ 24 + n ∧ |a' / W| ≤ M + (m + 2) * (smoothUnit M W n / W) := by
  have hρ := smoothUnit_pos hM hW hn
  have hρe : smoothUnit M W n = 6 * (M * W) / 2 ^ 24 + n := rfl
  generalize smoothUnit M W n = ρ at *
  have P0 : 0 ≤ M * W := by positivity
  have WT : |(W - T) * v| ≤ M * (W - T) := by
    rw [abs_mul, abs_of_nonneg (by linarith), mul_comm]; exact mul_le_mul_of_nonneg_right hv (by linarith)
  have ex : |I + (W - T) * v| ≤ M * W := by
    have := abs_add_le I ((W - T) * v)
    linarith
  have gT : |g - (W - T)| ≤ 7 / 2 * W / 2 ^ 24 := by
    have b1 := abs_sub_le g (W - t + q) (W - T)
    have b2 : |W - t + q - (W - T)| = |t - (T + q)| := by rw [← abs_neg]; congr 1; ring
    have b3 := abs_sub_le (W - t + q) (W - T) 0
    rw [sub_zero, sub_zero, abs_of_nonneg (show 0 ≤ W - T by linarith)] at b3
    rw [b2] at b1 b3
    linarith
  have g1 : |g| ≤ 101 / 100 * W := by
    have b3 := abs_sub_le g (W - T) 0
    rw [sub_zero, sub_zero, abs_of_nonneg (show 0 ≤ W - T by linarith)] at b3
    linarith
  have gv : |g * v| ≤ 101 / 100 * (M * W) := by
    rw [abs_mul]
    calc |g| * |v| ≤ 101 / 100 * W * M := mul_le_mul g1 hv (abs_nonneg _) (by positivity)
      _ = _ := by ring
  have gv2 : |g * v - (W - T) * v| ≤ 7 / 2 * (M * W) / 2 ^ 24 := by
    rw [← sub_mul, abs_mul]
    calc |g - (W - T)| * |v| ≤ 7 / 2 * W / 2 ^ 24 * M := mul_le_mul gT hv (abs_nonneg _) (by positivity)
      _ = _ := by ring
  have sT := abs_sub_le s (g * v) ((W - T) * v)
  have x1 : m * T / W ≤ m := by rw [div_le_iff₀ hW]; exact mul_le_mul_of_nonneg_left T1 hm
  have κ0 : ρ * (1 + m * T / W) ≤ ρ * (1 + m) := mul_le_mul_of_nonneg_left (by linarith) hρ.le
  have κm : ρ * (1 + m) / 2 ^ 24 ≤ ρ / 1000 := by
    have h2 : ρ * ((m + 1) * 1000) ≤ ρ * 2 ^ 24 := mul_le_mul_of_nonneg_left hm' hρ.le
    linarith
  generalize ρ * (1 + m * T / W) = κ at *
  have as : |a + s - (I + (W - T) * v)| ≤ |a - I| + |s - (W - T) * v| := by
    rw [show a + s - (I + (W - T) * v) = (a - I) + (s - (W - T) * v) by ring]
    exact abs_add_le _ _
  have sum : |a + s| ≤ |a + s - (I + (W - T) * v)| + |I + (W - T) * v| := by
    have b2 := abs_sub_le (a + s) (I + (W - T) * v) 0
    rwa [sub_zero, sub_zero] at b2
  have a'1 : |a' - (I + (W - T) * v)| ≤ ρ * (1 + m) + ρ := by
    have := abs_sub_le a' (a + s) (I + (W - T) * v)
    linarith
  have R : |(I + (W - T) * v) / W| ≤ M := by rw [abs_div, abs_of_pos hW, div_le_iff₀ hW]; exact ex
  have q1 : |a' / W - (I + (W - T) * v) / W| ≤ (m + 2) * (ρ / W) := by
    rw [← sub_div, abs_div, abs_of_pos hW, div_le_iff₀ hW, mul_assoc, div_mul_cancel₀ _ hW.ne']
    linarith
  have q2 : |a' / W| ≤ M + (m + 2) * (ρ / W) := by
    have b2 := abs_sub_le (a' / W) ((I + (W - T) * v) / W) 0
    rw [sub_zero, sub_zero] at b2
    linarith
  refine ⟨R, ?_, by linarith, by linarith, by linarith, q2⟩
  have z0 : 0 < ρ / W := by positivity
  have hMz : M / 2 ^ 24 ≤ ρ / W / 6 := by
    rw [hρe, add_div, show 6 * (M * W) / 2 ^ 24 / W = 6 * M / 2 ^ 24 by field_simp]
    have : 0 < n / W := by positivity
    linarith
  have hmz : (m + 2) * (ρ / W) / 2 ^ 24 ≤ ρ / W / 100 := by
    have h2 : (m + 1) * 1000 * (ρ / W) ≤ 2 ^ 24 * (ρ / W) := mul_le_mul_of_nonneg_right hm' z0.le
    linarith
  have b := abs_sub_le r (a' / W) ((I + (W - T) * v) / W)
  have : |a' / W| / 2 ^ 24 ≤ (M + (m + 2) * (ρ / W)) / 2 ^ 24 := div_le_div_of_nonneg_right q2 (by norm_num)
  linarith

end Flut
