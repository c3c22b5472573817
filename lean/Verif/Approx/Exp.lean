import Verif.Approx.Horner
import Mathlib.Analysis.Complex.Exponential
import Mathlib.Analysis.SpecialFunctions.Log.Deriv
import Mathlib.Analysis.SpecialFunctions.Pow.Real

/-! # The exponential function near zero, and its polynomial -/

namespace Verif.Approx
open Verif.Float

theorem k_log2e : Fin b64 log2e ∧ R b64 log2e = 6497320848556798 / 2 ^ 52 := by
  exact_mod_cast lit_pos (x := log2e) (E := 1023) (m := 6497320848556798) (k := 52) (by norm_num [log2e]) (by norm_num) (by norm_num) (by norm_num)

theorem k_ln2hi : Fin b64 ln2hi ∧ R b64 ln2hi = 6243314768166912 / 2 ^ 53 := by
  exact_mod_cast lit_pos (x := ln2hi) (E := 1022) (m := 6243314768166912) (k := 53) (by norm_num [ln2hi]) (by norm_num) (by norm_num) (by norm_num)

theorem k_ln2lo : Fin b64 ln2lo ∧ R b64 ln2lo = -(6829247562655284 / 2 ^ 95) := by
  exact_mod_cast lit_neg (x := ln2lo) (E := 980) (m := 6829247562655284) (k := 95) (by norm_num [ln2lo]) (by norm_num) (by norm_num) (by norm_num)

theorem k_ln2 : Fin b64 ln2 ∧ R b64 ln2 = 6243314768165359 / 2 ^ 53 := by
  exact_mod_cast lit_pos (x := ln2) (E := 1022) (m := 6243314768165359) (k := 53) (by norm_num [ln2]) (by norm_num) (by norm_num) (by norm_num)

theorem k_one : Fin b64 one ∧ R b64 one = 4503599627370496 / 2 ^ 52 := by
  exact_mod_cast lit_pos (x := one) (E := 1023) (m := 4503599627370496) (k := 52) (by norm_num [one]) (by norm_num) (by norm_num) (by norm_num)

theorem expC_0 : Fin b64 0x3FF0000000000000 ∧ R b64 0x3FF0000000000000 = 4503599627370496 / 2 ^ 52 := by
  exact_mod_cast lit_pos (x := 0x3FF0000000000000) (E := 1023) (m := 4503599627370496) (k := 52) (by norm_num) (by norm_num) (by norm_num) (by norm_num)

theorem expC_1 : Fin b64 0x3FE0000000000005 ∧ R b64 0x3FE0000000000005 = 4503599627370501 / 2 ^ 53 := by
  exact_mod_cast lit_pos (x := 0x3FE0000000000005) (E := 1022) (m := 4503599627370501) (k := 53) (by norm_num) (by norm_num) (by norm_num) (by norm_num)

theorem expC_2 : Fin b64 0x3FC5555555555540 ∧ R b64 0x3FC5555555555540 = 6004799503160640 / 2 ^ 55 := by
  exact_mod_cast lit_pos (x := 0x3FC5555555555540) (E := 1020) (m := 6004799503160640) (k := 55) (by norm_num) (by norm_num) (by norm_num) (by norm_num)

theorem expC_3 : Fin b64 0x3FA555555555211A ∧ R b64 0x3FA555555555211A = 6004799503147290 / 2 ^ 57 := by
  exact_mod_cast lit_pos (x := 0x3FA555555555211A) (E := 1018) (m := 6004799503147290) (k := 57) (by norm_num) (by norm_num) (by norm_num) (by norm_num)

theorem expC_4 : Fin b64 0x3F811111111173CC ∧ R b64 0x3F811111111173CC = 4803839602553804 / 2 ^ 59 := by
  exact_mod_cast lit_pos (x := 0x3F811111111173CC) (E := 1016) (m := 4803839602553804) (k := 59) (by norm_num) (by norm_num) (by norm_num) (by norm_num)

theorem expC_5 : Fin b64 0x3F56C16C17F2A70F ∧ R b64 0x3F56C16C17F2A70F = 6405119490041615 / 2 ^ 62 := by
  exact_mod_cast lit_pos (x := 0x3F56C16C17F2A70F) (E := 1013) (m := 6405119490041615) (k := 62) (by norm_num) (by norm_num) (by norm_num) (by norm_num)

theorem expC_6 : Fin b64 0x3F2A01A017EE7F13 ∧ R b64 0x3F2A01A017EE7F13 = 7320136502378259 / 2 ^ 65 := by
  exact_mod_cast lit_pos (x := 0x3F2A01A017EE7F13) (E := 1010) (m := 7320136502378259) (k := 65) (by norm_num) (by norm_num) (by norm_num) (by norm_num)

theorem expC_7 : Fin b64 0x3EFA019A6B0B0206 ∧ R b64 0x3EFA019A6B0B0206 = 7320112126951942 / 2 ^ 68 := by
  exact_mod_cast lit_pos (x := 0x3EFA019A6B0B0206) (E := 1007) (m := 7320112126951942) (k := 68) (by norm_num) (by norm_num) (by norm_num) (by norm_num)

theorem expC_8 : Fin b64 0x3EC71DE71735C55F ∧ R b64 0x3EC71DE71735C55F = 6506802828395871 / 2 ^ 71 := by
  exact_mod_cast lit_pos (x := 0x3EC71DE71735C55F) (E := 1004) (m := 6506802828395871) (k := 71) (by norm_num) (by norm_num) (by norm_num) (by norm_num)

theorem expC_9 : Fin b64 0x3E928A27F8516605 ∧ R b64 0x3E928A27F8516605 = 5218453855233541 / 2 ^ 74 := by
  exact_mod_cast lit_pos (x := 0x3E928A27F8516605) (E := 1001) (m := 5218453855233541) (k := 74) (by norm_num) (by norm_num) (by norm_num) (by norm_num)

theorem expC_10 : Fin b64 0x3E5AE902082B73E6 ∧ R b64 0x3E5AE902082B73E6 = 7574544330748902 / 2 ^ 78 := by
  exact_mod_cast lit_pos (x := 0x3E5AE902082B73E6) (E := 997) (m := 7574544330748902) (k := 78) (by norm_num) (by norm_num) (by norm_num) (by norm_num)

/-- The coefficients as rational numbers. -/
theorem expC_R : expC.map (R b64) = [4503599627370496 / 2 ^ 52, 4503599627370501 / 2 ^ 53, 6004799503160640 / 2 ^ 55, 6004799503147290 / 2 ^ 57, 4803839602553804 / 2 ^ 59, 6405119490041615 / 2 ^ 62, 7320136502378259 / 2 ^ 65, 7320112126951942 / 2 ^ 68, 6506802828395871 / 2 ^ 71, 5218453855233541 / 2 ^ 74, 7574544330748902 / 2 ^ 78] := by
  simp only [expC, List.map, expC_0.2, expC_1.2, expC_2.2, expC_3.2, expC_4.2, expC_5.2, expC_6.2, expC_7.2, expC_8.2, expC_9.2, expC_10.2]

theorem expC_fin : ∀ c ∈ expC, Fin b64 c := by
  unfold expC Fin; decide

theorem expC_le : ∀ c ∈ expC, |R b64 c| ≤ 1 := by
  intro c hc
  simp only [expC, List.mem_cons, List.not_mem_nil, or_false] at hc
  rcases hc with rfl | rfl | rfl | rfl | rfl | rfl | rfl | rfl | rfl | rfl | rfl <;> norm_num [expC_0.2, expC_1.2, expC_2.2, expC_3.2, expC_4.2, expC_5.2, expC_6.2, expC_7.2, expC_8.2, expC_9.2, expC_10.2]

/-- A sharp bound of `log 2`. -/
theorem log_two_sharp : |Real.log 2 - 0.693147180559945309417232121458| ≤ 1 / 10 ^ 24 := by
  have t : |(2⁻¹ : ℝ)| = 2⁻¹ := by rw [abs_of_pos]; norm_num
  have z := Real.abs_log_sub_add_sum_range_le (show |(2⁻¹ : ℝ)| < 1 by rw [t]; norm_num) 85
  rw [t, show (1 : ℝ) - 2⁻¹ = 2⁻¹ by norm_num, Real.log_inv, ← sub_eq_add_neg, abs_sub_comm] at z
  have s : |(∑ i ∈ Finset.range 85, (2⁻¹ : ℝ) ^ (i + 1) / (i + 1)) - 0.693147180559945309417232121458| ≤ 1 / 10 ^ 25 := by
    norm_num [Finset.sum_range_succ, abs_le]
  refine (abs_sub_le _ _ _).trans ((add_le_add z s).trans ?_)
  norm_num

theorem exp_taylor {t : ℝ} (h : |t| ≤ 1) : |Real.exp t - (1 + t * poly t [1 / 1, 1 / 2, 1 / 6, 1 / 24, 1 / 120, 1 / 720, 1 / 5040, 1 / 40320, 1 / 362880, 1 / 3628800, 1 / 39916800, 1 / 479001600, 1 / 6227020800])| ≤ |t| * (|t| ^ 13 / 10 ^ 10) := by
  have := Real.exp_bound h (n := 14) (by norm_num)
  have e : ∑ m ∈ Finset.range 14, t ^ m / (m.factorial : ℝ) = 1 + t * poly t [1 / 1, 1 / 2, 1 / 6, 1 / 24, 1 / 120, 1 / 720, 1 / 5040, 1 / 40320, 1 / 362880, 1 / 3628800, 1 / 39916800, 1 / 479001600, 1 / 6227020800] := by
    simp only [Finset.sum_range_succ, Finset.sum_range_zero, poly]
    norm_num [Nat.factorial]
    ring
  rw [e] at this
  refine this.trans ?_
  rw [pow_succ' _ 13, mul_assoc]
  refine mul_le_mul_of_nonneg_left ?_ (abs_nonneg _)
  rw [div_eq_mul_inv]
  refine mul_le_mul_of_nonneg_left ?_ (by positivity)
  norm_num [Nat.factorial]

/-- The polynomial of the kernel, for reduced arguments. -/
theorem expC_poly {t : ℝ} (h : |t| ≤ 0.347) : |t * poly t (expC.map (R b64)) - (Real.exp t - 1)| ≤ |t| * (1.6 / 10 ^ 13) := by
  have h1 := exp_taylor (h.trans (by norm_num))
  have h2 := poly_sub t (expC.map (R b64) ++ [0, 0]) [1 / 1, 1 / 2, 1 / 6, 1 / 24, 1 / 120, 1 / 720, 1 / 5040, 1 / 40320, 1 / 362880, 1 / 3628800, 1 / 39916800, 1 / 479001600, 1 / 6227020800] (by rfl)
  have h3 : poly t (expC.map (R b64) ++ [0, 0]) = poly t (expC.map (R b64)) := by
    rw [expC_R]; simp [poly]
  rw [h3] at h2
  have h4 := poly_abs h (List.zipWith (· - ·) (expC.map (R b64) ++ [0, 0]) [1 / 1, 1 / 2, 1 / 6, 1 / 24, 1 / 120, 1 / 720, 1 / 5040, 1 / 40320, 1 / 362880, 1 / 3628800, 1 / 39916800, 1 / 479001600, 1 / 6227020800])
  rw [← h2, expC_R] at h4
  rw [expC_R]
  have h5 : poly (0.347 : ℝ) ((List.zipWith (· - ·) ([4503599627370496 / 2 ^ 52, 4503599627370501 / 2 ^ 53, 6004799503160640 / 2 ^ 55, 6004799503147290 / 2 ^ 57, 4803839602553804 / 2 ^ 59, 6405119490041615 / 2 ^ 62, 7320136502378259 / 2 ^ 65, 7320112126951942 / 2 ^ 68, 6506802828395871 / 2 ^ 71, 5218453855233541 / 2 ^ 74, 7574544330748902 / 2 ^ 78] ++ [0, 0]) [1 / 1, 1 / 2, 1 / 6, 1 / 24, 1 / 120, 1 / 720, 1 / 5040, 1 / 40320, 1 / 362880, 1 / 3628800, 1 / 39916800, 1 / 479001600, 1 / 6227020800]).map abs) ≤ 1.5 / 10 ^ 13 := by
    simp only [List.cons_append, List.nil_append, List.zipWith_cons_cons, List.zipWith_nil_left, List.map, poly]
    norm_num [abs_of_pos, abs_of_neg]
  have h6 := h4.trans h5
  have h7 : |t| ^ 13 / 10 ^ 10 ≤ 0.1 / 10 ^ 13 := by
    have : |t| ^ 13 ≤ 0.347 ^ 13 := pow_le_pow_left₀ (abs_nonneg _) h 13
    refine (div_le_div_of_nonneg_right this (by norm_num)).trans (by norm_num)
  generalize poly t [4503599627370496 / 2 ^ 52, 4503599627370501 / 2 ^ 53, 6004799503160640 / 2 ^ 55, 6004799503147290 / 2 ^ 57, 4803839602553804 / 2 ^ 59, 6405119490041615 / 2 ^ 62, 7320136502378259 / 2 ^ 65, 7320112126951942 / 2 ^ 68, 6506802828395871 / 2 ^ 71, 5218453855233541 / 2 ^ 74, 7574544330748902 / 2 ^ 78] = P at *
  generalize poly t [1 / 1, 1 / 2, 1 / 6, 1 / 24, 1 / 120, 1 / 720, 1 / 5040, 1 / 40320, 1 / 362880, 1 / 3628800, 1 / 39916800, 1 / 479001600, 1 / 6227020800] = Q at *
  have h8 : |t * (P - Q)| ≤ |t| * (1.5 / 10 ^ 13) := by rw [abs_mul]; exact mul_le_mul_of_nonneg_left h6 (abs_nonneg _)
  have h9 := h1.trans (mul_le_mul_of_nonneg_left h7 (abs_nonneg _))
  have a := abs_le.1 h8
  have b := abs_le.1 h9
  exact abs_le.2 ⟨by linarith, by linarith⟩

end Verif.Approx
