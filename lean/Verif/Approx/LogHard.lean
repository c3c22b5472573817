import Verif.Approx.Logs
import Verif.Approx.Bound
import Mathlib.Analysis.SpecialFunctions.Log.Base

/-! # Sharp values of logarithms, for the results written into the code -/

namespace Verif.Approx
open Verif.Float Verif.Approx.Spec
open Verif.Math.Spec (Pat absOf negative value)

theorem log_five_fourths : |Real.log (5 / 2 ^ 2) - 0.22314355131420975576629509030983| ≤ 1 / 10 ^ 20 := by
  have e : (((5 : ℝ) / 2 ^ 2) - 1) / (((5 : ℝ) / 2 ^ 2) + 1) = 1 / 9 := by norm_num
  have h := ath_series (t := 1 / 9) (by norm_num [abs_of_pos])
  simp only [poly] at h
  norm_num [abs_of_pos] at h
  rw [log_ath (by norm_num), e]
  have h' := abs_le.1 h
  norm_num
  exact abs_le.2 ⟨by linarith, by linarith⟩

theorem log_ten_sharp : |Real.log 10 - 2.302585092994045684017991454684364| ≤ 2 / 10 ^ 20 := by
  have e : Real.log 10 = Real.log (5 / 2 ^ 2) + 3 * Real.log 2 := by
    have : (10 : ℝ) = 5 / 2 ^ 2 * 2 ^ 3 := by norm_num
    rw [this, Real.log_mul (by norm_num) (by norm_num), Real.log_pow]; push_cast; ring
  have a := abs_le.1 log_five_fourths
  have b := abs_le.1 log_two_sharp
  rw [e]
  norm_num at *
  exact abs_le.2 ⟨by linarith, by linarith⟩

theorem log_sharp1 : |Real.log (14509477 / 2 ^ 24) - (-0.14521975333543335686526004)| ≤ 1 / 10 ^ 20 := by
  have e : (((14509477 : ℝ) / 2 ^ 24) - 1) / (((14509477 : ℝ) / 2 ^ 24) + 1) = -(2267739 / 31286693) := by norm_num
  have h := ath_series (t := -(2267739 / 31286693)) (by norm_num [abs_of_pos, abs_of_neg])
  simp only [poly] at h
  norm_num [abs_of_pos, abs_of_neg] at h
  rw [log_ath (by norm_num), e]
  have h' := abs_le.1 h
  norm_num at h'
  norm_num
  exact abs_le.2 ⟨by linarith, by linarith⟩

theorem log_hard1 : Rounded b32 (Real.log (14509477 * 2 ^ 2)) 0x418F034B := by
  have e : Real.log (14509477 * 2 ^ 2) = Real.log (14509477 / 2 ^ 24) + 26 * Real.log 2 := by
    rw [show ((14509477 : ℝ) * 2 ^ 2) = 14509477 / 2 ^ 24 * 2 ^ 26 by norm_num, Real.log_mul (by norm_num) (by norm_num), Real.log_pow]; push_cast; ring
  have a := abs_le.1 log_sharp1
  have b := abs_le.1 log_two_sharp
  rw [e]
  generalize Real.log (14509477 / 2 ^ 24) = l at *
  refine rounded_mid (a := 18744981) (b := 18744983) (k := 19) (by decide) (by decide) (by decide +kernel) (by decide +kernel) ?_ ?_
  · norm_num at *; linarith
  · norm_num at *; linarith

theorem log_sharp2 : |Real.log (14192851 / 2 ^ 24) - (-0.16728338834528079718542912)| ≤ 1 / 10 ^ 20 := by
  have e : (((14192851 : ℝ) / 2 ^ 24) - 1) / (((14192851 : ℝ) / 2 ^ 24) + 1) = -(2584365 / 30970067) := by norm_num
  have h := ath_series (t := -(2584365 / 30970067)) (by norm_num [abs_of_pos, abs_of_neg])
  simp only [poly] at h
  norm_num [abs_of_pos, abs_of_neg] at h
  rw [log_ath (by norm_num), e]
  have h' := abs_le.1 h
  norm_num at h'
  norm_num
  exact abs_le.2 ⟨by linarith, by linarith⟩

theorem log_hard2 : Rounded b32 (Real.log (14192851 * 2 ^ 53)) 0x4254D1F9 := by
  have e : Real.log (14192851 * 2 ^ 53) = Real.log (14192851 / 2 ^ 24) + 77 * Real.log 2 := by
    rw [show ((14192851 : ℝ) * 2 ^ 53) = 14192851 / 2 ^ 24 * 2 ^ 77 by norm_num, Real.log_mul (by norm_num) (by norm_num), Real.log_pow]; push_cast; ring
  have a := abs_le.1 log_sharp2
  have b := abs_le.1 log_two_sharp
  rw [e]
  generalize Real.log (14192851 / 2 ^ 24) = l at *
  refine rounded_mid (a := 27894769) (b := 27894771) (k := 18) (by decide) (by decide) (by decide +kernel) (by decide +kernel) ?_ ?_
  · norm_num at *; linarith
  · norm_num at *; linarith

theorem log_sharp3 : |Real.log (11643116 / 2 ^ 23) - (0.32784050915871771730615279)| ≤ 1 / 10 ^ 20 := by
  have e : (((11643116 : ℝ) / 2 ^ 23) - 1) / (((11643116 : ℝ) / 2 ^ 23) + 1) = 813627 / 5007931 := by norm_num
  have h := ath_series (t := 813627 / 5007931) (by norm_num [abs_of_pos, abs_of_neg])
  simp only [poly] at h
  norm_num [abs_of_pos, abs_of_neg] at h
  rw [log_ath (by norm_num), e]
  have h' := abs_le.1 h
  norm_num at h'
  norm_num
  exact abs_le.2 ⟨by linarith, by linarith⟩

theorem log_hard3 : Rounded b32 (Real.log (11643116 * 2 ^ 72)) 0x42845A89 := by
  have e : Real.log (11643116 * 2 ^ 72) = Real.log (11643116 / 2 ^ 23) + 95 * Real.log 2 := by
    rw [show ((11643116 : ℝ) * 2 ^ 72) = 11643116 / 2 ^ 23 * 2 ^ 95 by norm_num, Real.log_mul (by norm_num) (by norm_num), Real.log_pow]; push_cast; ring
  have a := abs_le.1 log_sharp3
  have b := abs_le.1 log_two_sharp
  rw [e]
  generalize Real.log (11643116 / 2 ^ 23) = l at *
  refine rounded_mid (a := 17347857) (b := 17347859) (k := 17) (by decide) (by decide) (by decide +kernel) (by decide +kernel) ?_ ?_
  · norm_num at *; linarith
  · norm_num at *; linarith

theorem log10_sharp1 : |Real.log (16707194 / 2 ^ 24) - (-0.00418237036698572987725930)| ≤ 1 / 10 ^ 20 := by
  have e : (((16707194 : ℝ) / 2 ^ 24) - 1) / (((16707194 : ℝ) / 2 ^ 24) + 1) = -(35011 / 16742205) := by norm_num
  have h := ath_series (t := -(35011 / 16742205)) (by norm_num [abs_of_pos, abs_of_neg])
  simp only [poly] at h
  norm_num [abs_of_pos, abs_of_neg] at h
  rw [log_ath (by norm_num), e]
  have h' := abs_le.1 h
  norm_num at h'
  norm_num
  exact abs_le.2 ⟨by linarith, by linarith⟩

theorem log10_hard1 : Rounded b32 (Real.logb 10 (16707194 / 2 ^ 121)) 0xC1E99D23 := by
  have e : Real.log (16707194 / 2 ^ 121) = Real.log (16707194 / 2 ^ 24) - 97 * Real.log 2 := by
    rw [show ((16707194 : ℝ) / 2 ^ 121) = 16707194 / 2 ^ 24 / 2 ^ 97 by norm_num, Real.log_div (by norm_num) (by norm_num), Real.log_pow]; push_cast; ring
  have a := abs_le.1 log10_sharp1
  have b := abs_le.1 log_two_sharp
  have c := abs_le.1 log_ten_sharp
  have p : 0 < Real.log 10 := Real.log_pos (by norm_num)
  have key : Rounded b32 (-Real.logb 10 (16707194 / 2 ^ 121)) 0x41e99d23 := by
    unfold Real.logb
    rw [e]
    generalize Real.log (16707194 / 2 ^ 24) = l at *
    generalize Real.log 10 = t at *
    generalize Real.log 2 = s at *
    clear e
    refine rounded_mid (a := 30620229) (b := 30620231) (k := 19) (by decide) (by decide) (by decide +kernel) (by decide +kernel) ?_ ?_
    · rw [← neg_div, ← mul_div_assoc, lt_div_iff₀ p]
      norm_num at *; linarith
    · rw [← neg_div, ← mul_div_assoc, div_lt_iff₀ p]
      norm_num at *; linarith
  have pos : 0 < -Real.logb 10 (16707194 / 2 ^ 121) := by
    have : Real.logb 10 (16707194 / 2 ^ 121) < 0 := Real.logb_neg (by norm_num) (by norm_num) (by norm_num)
    linarith
  have := rounded_sign key pos true
  simpa [show b32.pack true (b32.abs 0x41e99d23) = 0xC1E99D23 by decide] using this

theorem log10_sharp2 : |Real.log (9147356 / 2 ^ 23) - (0.08659028086683756228374023)| ≤ 1 / 10 ^ 20 := by
  have e : (((9147356 : ℝ) / 2 ^ 23) - 1) / (((9147356 : ℝ) / 2 ^ 23) + 1) = 189687 / 4383991 := by norm_num
  have h := ath_series (t := 189687 / 4383991) (by norm_num [abs_of_pos, abs_of_neg])
  simp only [poly] at h
  norm_num [abs_of_pos, abs_of_neg] at h
  rw [log_ath (by norm_num), e]
  have h' := abs_le.1 h
  norm_num at h'
  norm_num
  exact abs_le.2 ⟨by linarith, by linarith⟩

theorem log10_hard2 : Rounded b32 (Real.logb 10 (9147356 / 2 ^ 114)) 0xC1DAD957 := by
  have e : Real.log (9147356 / 2 ^ 114) = Real.log (9147356 / 2 ^ 23) - 91 * Real.log 2 := by
    rw [show ((9147356 : ℝ) / 2 ^ 114) = 9147356 / 2 ^ 23 / 2 ^ 91 by norm_num, Real.log_div (by norm_num) (by norm_num), Real.log_pow]; push_cast; ring
  have a := abs_le.1 log10_sharp2
  have b := abs_le.1 log_two_sharp
  have c := abs_le.1 log_ten_sharp
  have p : 0 < Real.log 10 := Real.log_pos (by norm_num)
  have key : Rounded b32 (-Real.logb 10 (9147356 / 2 ^ 114)) 0x41dad957 := by
    unfold Real.logb
    rw [e]
    generalize Real.log (9147356 / 2 ^ 23) = l at *
    generalize Real.log 10 = t at *
    generalize Real.log 2 = s at *
    clear e
    refine rounded_mid (a := 28684973) (b := 28684975) (k := 19) (by decide) (by decide) (by decide +kernel) (by decide +kernel) ?_ ?_
    · rw [← neg_div, ← mul_div_assoc, lt_div_iff₀ p]
      norm_num at *; linarith
    · rw [← neg_div, ← mul_div_assoc, div_lt_iff₀ p]
      norm_num at *; linarith
  have pos : 0 < -Real.logb 10 (9147356 / 2 ^ 114) := by
    have : Real.logb 10 (9147356 / 2 ^ 114) < 0 := Real.logb_neg (by norm_num) (by norm_num) (by norm_num)
    linarith
  have := rounded_sign key pos true
  simpa [show b32.pack true (b32.abs 0x41dad957) = 0xC1DAD957 by decide] using this

theorem log10_sharp3 : |Real.log (11434195 / 2 ^ 23) - (0.30973383218104731805003532)| ≤ 1 / 10 ^ 20 := by
  have e : (((11434195 : ℝ) / 2 ^ 23) - 1) / (((11434195 : ℝ) / 2 ^ 23) + 1) = 3045587 / 19822803 := by norm_num
  have h := ath_series (t := 3045587 / 19822803) (by norm_num [abs_of_pos, abs_of_neg])
  simp only [poly] at h
  norm_num [abs_of_pos, abs_of_neg] at h
  rw [log_ath (by norm_num), e]
  have h' := abs_le.1 h
  norm_num at h'
  norm_num
  exact abs_le.2 ⟨by linarith, by linarith⟩

theorem log10_hard3 : Rounded b32 (Real.logb 10 (11434195 / 2 ^ 111)) 0xC1D2D957 := by
  have e : Real.log (11434195 / 2 ^ 111) = Real.log (11434195 / 2 ^ 23) - 88 * Real.log 2 := by
    rw [show ((11434195 : ℝ) / 2 ^ 111) = 11434195 / 2 ^ 23 / 2 ^ 88 by norm_num, Real.log_div (by norm_num) (by norm_num), Real.log_pow]; push_cast; ring
  have a := abs_le.1 log10_sharp3
  have b := abs_le.1 log_two_sharp
  have c := abs_le.1 log_ten_sharp
  have p : 0 < Real.log 10 := Real.log_pos (by norm_num)
  have key : Rounded b32 (-Real.logb 10 (11434195 / 2 ^ 111)) 0x41d2d957 := by
    unfold Real.logb
    rw [e]
    generalize Real.log (11434195 / 2 ^ 23) = l at *
    generalize Real.log 10 = t at *
    generalize Real.log 2 = s at *
    clear e
    refine rounded_mid (a := 27636397) (b := 27636399) (k := 19) (by decide) (by decide) (by decide +kernel) (by decide +kernel) ?_ ?_
    · rw [← neg_div, ← mul_div_assoc, lt_div_iff₀ p]
      norm_num at *; linarith
    · rw [← neg_div, ← mul_div_assoc, div_lt_iff₀ p]
      norm_num at *; linarith
  have pos : 0 < -Real.logb 10 (11434195 / 2 ^ 111) := by
    have : Real.logb 10 (11434195 / 2 ^ 111) < 0 := Real.logb_neg (by norm_num) (by norm_num) (by norm_num)
    linarith
  have := rounded_sign key pos true
  simpa [show b32.pack true (b32.abs 0x41d2d957) = 0xC1D2D957 by decide] using this

end Verif.Approx
