import Verif.Lemmas.FloatKnapsack
import Verif.Lemmas.Report
import Verif.Lemmas.ContTol

/-!
# Rounding of gaps
-/

namespace Verif.Props
open Model

theorem rd_zero : rd 0 = 0 := by
  have := rd_err 0
  simpa using this

theorem rd_eq_zero {q : ℚ} : rd q = 0 ↔ q = 0 := by
  refine ⟨fun h => ?_, fun h => by rw [h, rd_zero]⟩
  have h1 := rd_err q
  rw [h, zero_sub, abs_neg] at h1
  have h2 : |q| = 0 := by
    have := ulp_small
    nlinarith [abs_nonneg q]
  exact abs_eq_zero.1 h2

theorem rd_neg' (q : ℚ) : rd (-q) = -rd q := by
  unfold rd
  by_cases h : 0 ≤ q
  · by_cases h0 : q = 0
    · subst h0; simp [fl64]
    · have : ¬ 0 ≤ -q := by
        have := lt_of_le_of_ne h (Ne.symm h0)
        linarith
      rw [if_neg this, if_pos h, neg_neg]
  · rw [if_pos (by linarith), if_neg h, neg_neg]

theorem rd_pos {q : ℚ} (h : 0 < rd q) : 0 < q := by
  by_contra h0
  have := rd_mono (not_lt.1 h0)
  rw [rd_zero] at this
  linarith

/-- The relative error of a rounded quotient of a rounded difference. -/
theorem gap_err {d l : ℚ} :
    |rd (rd d / l) - d / l| ≤ 1 / 2 ^ 51 * |d / l| := by
  have h1 := rd_err d
  have h2 := rd_err (rd d / l)
  have h3 : |rd d / l - d / l| ≤ ulp * |d / l| := by
    rw [← sub_div, abs_div, abs_div, ← mul_div_assoc]
    exact div_le_div_of_nonneg_right h1 (abs_nonneg l)
  have h4 : |rd d / l| ≤ (1 + ulp) * |d / l| := by
    have := abs_sub_abs_le_abs_sub (rd d / l) (d / l)
    linarith
  have h5 : |rd (rd d / l) - d / l| ≤ ulp * |rd d / l| + ulp * |d / l| := by
    have := abs_sub_le (rd (rd d / l)) (rd d / l) (d / l)
    linarith
  have h6 : ulp * |rd d / l| ≤ ulp * ((1 + ulp) * |d / l|) := mul_le_mul_of_nonneg_left h4 ulp_pos.le
  have h7 := abs_nonneg (d / l)
  have h8 : ulp * ((1 + ulp) * |d / l|) + ulp * |d / l| ≤ 1 / 2 ^ 51 * |d / l| := by
    have : ulp * (1 + ulp) + ulp ≤ 1 / 2 ^ 51 := by unfold ulp; norm_num
    nlinarith
  linarith

theorem roundDec_pos {d : ℕ} {q : ℚ} (h : 0 < roundDec d q) : 0 < q := by
  by_contra h0
  have h0 := not_lt.1 h0
  unfold roundDec at h
  have h1 : (0 : ℚ) ≤ (rint (|q| * 10 ^ d) : ℚ) / 10 ^ d := by
    have := rint_nonneg (x := |q| * 10 ^ d) (by positivity)
    have h2 : (0 : ℚ) ≤ (rint (|q| * 10 ^ d) : ℚ) := by exact_mod_cast this
    positivity
  split at h
  · linarith
  · rename_i hq
    have : q = 0 := le_antisymm h0 (not_lt.1 hq)
    subst this
    rw [abs_zero, zero_mul] at h
    have h3 := rint_intCast 0
    simp only [Int.cast_zero] at h3
    rw [h3] at h
    simp at h

theorem roundDec_nonneg {d : ℕ} {q : ℚ} (h : 0 ≤ q) : 0 ≤ roundDec d q := by
  unfold roundDec
  rw [if_neg (not_lt.2 h)]
  have := rint_nonneg (x := |q| * 10 ^ d) (by positivity)
  have h2 : (0 : ℚ) ≤ (rint (|q| * 10 ^ d) : ℚ) := by exact_mod_cast this
  positivity

theorem roundDec3_near (q : ℚ) : |roundDec 3 q - q| ≤ 1 / 2000 := by
  have := roundDec_near 3 q
  rwa [show (1 : ℚ) / (2 * 10 ^ 3) = 1 / 2000 by norm_num] at this

/-- A non-negative gap as printed in percent and read back. -/
theorem percent_low {d l : ℚ} (hd : 0 ≤ d) (hl : 0 < l) :
    100 * (d / l) * (1 - 1 / 2 ^ 50) ≤ rd (roundDec 3 (rd (rd (rd d / l) * 100))) + 51 / 100000 := by
  have h0 : 0 ≤ d / l := div_nonneg hd hl.le
  have h1 : (1 - 1 / 2 ^ 51) * (d / l) ≤ rd (rd d / l) := by
    have := (abs_le.1 (gap_err (d := d) (l := l))).1
    rw [abs_of_nonneg h0] at this
    linarith
  have hg : 0 ≤ rd (rd d / l) := rd_nonneg (div_nonneg (rd_nonneg hd) hl.le)
  have h2 := rd_low (q := rd (rd d / l) * 100) (by positivity)
  have h2' : 0 ≤ rd (rd (rd d / l) * 100) := rd_nonneg (by positivity)
  have h3 := (abs_le.1 (roundDec3_near (rd (rd (rd d / l) * 100)))).1
  have h4 := rd_low (roundDec_nonneg (d := 3) h2')
  generalize rd (roundDec 3 (rd (rd (rd d / l) * 100))) = e at *
  generalize roundDec 3 (rd (rd (rd d / l) * 100)) = p at *
  generalize rd (rd (rd d / l) * 100) = a at *
  generalize rd (rd d / l) = b at *
  generalize d / l = t at *
  have h5 : (1 - ulp) * (b * 100) ≤ a := h2
  have hu := ulp_pos
  have h6 : (1 - ulp) * ((1 - 1 / 2 ^ 51) * t) ≤ (1 - ulp) * b :=
    mul_le_mul_of_nonneg_left h1 (by have := ulp_small; linarith)
  have h7 : (1 - ulp) * (a - 1 / 2000) ≤ (1 - ulp) * p :=
    mul_le_mul_of_nonneg_left (by linarith) (by have := ulp_small; linarith)
  have h8 : (1 - ulp) * ((1 - ulp) * ((1 - 1 / 2 ^ 51) * t) * 100) ≤ (1 - ulp) * a :=
    mul_le_mul_of_nonneg_left (by linarith) (by have := ulp_small; linarith)
  have h9 : (1 - 1 / 2 ^ 50) * t ≤ (1 - ulp) * ((1 - ulp) * (1 - 1 / 2 ^ 51)) * t :=
    mul_le_mul_of_nonneg_right (by unfold ulp; norm_num) h0
  linarith

theorem contTol_low {κ : ℚ} (h : 0 ≤ κ) : 1 / 10 ^ 9 ≤ contTol κ := by
  unfold contTol
  rw [div_le_div_iff_of_pos_right (by norm_num)]
  linarith

end Verif.Props
