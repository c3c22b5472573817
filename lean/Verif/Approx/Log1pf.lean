import Verif.Approx.Log1p

/-! # The error of `log1pf` -/

namespace Verif.Approx
open Verif.Float Verif.Approx.Spec
open Verif.Math.Spec (Pat absOf negative value)

theorem ath_small {t : ℝ} (h : |t| ≤ 0.0012) : |ath t - (t + t * t ^ 2 * poly (t ^ 2) [1 / 3, 1 / 5, 1 / 7])| ≤ |t| * (5 / 10 ^ 24) := by
  have h1 : |t| < 1 := lt_of_le_of_lt h (by norm_num)
  have a := Real.abs_log_sub_add_sum_range_le h1 8
  have b := Real.abs_log_sub_add_sum_range_le (x := -t) (by rwa [abs_neg]) 8
  rw [abs_neg, sub_neg_eq_add] at b
  have e : (∑ i ∈ Finset.range 8, t ^ (i + 1) / ((i : ℝ) + 1)) - ∑ i ∈ Finset.range 8, (-t) ^ (i + 1) / ((i : ℝ) + 1) =
      2 * (t + t * t ^ 2 * poly (t ^ 2) [1 / 3, 1 / 5, 1 / 7]) := by
    simp only [Finset.sum_range_succ, Finset.sum_range_zero, poly]
    norm_num
    ring
  have c : |t| ^ (8 + 1) / (1 - |t|) ≤ |t| * (5 / 10 ^ 24) := by
    have hd : 0 < 1 - |t| := by linarith
    rw [div_le_iff₀ hd, pow_succ', mul_assoc]
    refine mul_le_mul_of_nonneg_left ?_ (abs_nonneg _)
    have : |t| ^ 8 ≤ 0.0012 ^ 8 := pow_le_pow_left₀ (abs_nonneg _) h 8
    refine this.trans ?_
    have : (5 : ℝ) / 10 ^ 24 * (1 - 0.0012) ≤ 5 / 10 ^ 24 * (1 - |t|) := by gcongr
    refine le_trans ?_ this
    norm_num
  have a' := abs_le.1 (a.trans c)
  have b' := abs_le.1 (b.trans c)
  unfold ath
  generalize (∑ i ∈ Finset.range 8, t ^ (i + 1) / ((i : ℝ) + 1)) = A at *
  generalize (∑ i ∈ Finset.range 8, (-t) ^ (i + 1) / ((i : ℝ) + 1)) = B at *
  generalize t + t * t ^ 2 * poly (t ^ 2) [1 / 3, 1 / 5, 1 / 7] = P at *
  exact abs_le.2 ⟨by linarith, by linarith⟩

theorem log1p_arg1 : Fin b32 0x35400003 ∧ R b32 0x35400003 = 12582915 / 2 ^ 44 := by
  have := lit32 (x := 0x35400003) (m := 12582915) (k := 44) (s := false) (by decide) (by decide) (by decide +kernel)
  refine ⟨this.1, this.2.trans ?_⟩
  push_cast
  simp

theorem log1p_hard1 : Rounded b32 (Real.log (1 + 12582915 / 2 ^ 44)) 0x353FFFFF := by
  rw [log1p_ath (by norm_num), show (12582915 / 2 ^ 44 : ℝ) / (2 + 12582915 / 2 ^ 44) = 12582915 / 35184384671747 by norm_num]
  have h := abs_le.1 (ath_small (t := 12582915 / 35184384671747) (by norm_num [abs_of_pos]))
  rw [abs_of_pos (by norm_num)] at h
  simp only [poly] at h
  generalize ath (12582915 / 35184384671747) = q at *
  refine rounded_mid (a := 25165821) (b := 25165823) (k := 44) (by decide) (by decide) (by decide +kernel) (by decide +kernel) ?_ ?_
  · norm_num at *; linarith
  · norm_num at *; linarith

theorem log1p_arg2 : Fin b32 0xB53FFFFD ∧ R b32 0xB53FFFFD = -(12582909 / 2 ^ 44) := by
  have := lit32 (x := 0xB53FFFFD) (m := 12582909) (k := 44) (s := true) (by decide) (by decide) (by decide +kernel)
  refine ⟨this.1, this.2.trans ?_⟩
  push_cast
  simp

theorem log1p_hard2 : Rounded b32 (Real.log (1 + -(12582909 / 2 ^ 44))) 0xB5400001 := by
  have e : Real.log (1 + -(12582909 / 2 ^ 44)) = -(2 * ath (12582909 / 35184359505923)) := by
    rw [log1p_ath (by norm_num), show -(12582909 / 2 ^ 44 : ℝ) / (2 + -(12582909 / 2 ^ 44)) = -(12582909 / 35184359505923) by norm_num, ath_neg]; ring
  have p := le_ath (t := 12582909 / 35184359505923) (by norm_num) (by norm_num)
  have h := abs_le.1 (ath_small (t := 12582909 / 35184359505923) (by norm_num [abs_of_pos]))
  rw [abs_of_pos (by norm_num)] at h
  simp only [poly] at h
  rw [e]
  generalize ath (12582909 / 35184359505923) = q at *
  clear e
  have key : Rounded b32 (2 * q) 0x35400001 := by
    refine rounded_mid (a := 25165825) (b := 25165827) (k := 44) (by decide) (by decide) (by decide +kernel) (by decide +kernel) ?_ ?_
    · norm_num at *; linarith
    · norm_num at *; linarith
  have pos : 0 < 2 * q := by
    norm_num at *
    linarith
  have := rounded_sign key pos true
  simpa [show b32.pack true (b32.abs 0x35400001) = 0xB5400001 by decide] using this

theorem log1p_arg3 : Fin b32 0x3710001B ∧ R b32 0x3710001B = 9437211 / 2 ^ 40 := by
  have := lit32 (x := 0x3710001B) (m := 9437211) (k := 40) (s := false) (by decide) (by decide) (by decide +kernel)
  refine ⟨this.1, this.2.trans ?_⟩
  push_cast
  simp

theorem log1p_hard3 : Rounded b32 (Real.log (1 + 9437211 / 2 ^ 40)) 0x370FFFF3 := by
  rw [log1p_ath (by norm_num), show (9437211 / 2 ^ 40 : ℝ) / (2 + 9437211 / 2 ^ 40) = 9437211 / 2199032692763 by norm_num]
  have h := abs_le.1 (ath_small (t := 9437211 / 2199032692763) (by norm_num [abs_of_pos]))
  rw [abs_of_pos (by norm_num)] at h
  simp only [poly] at h
  generalize ath (9437211 / 2199032692763) = q at *
  refine rounded_mid (a := 18874341) (b := 18874343) (k := 40) (by decide) (by decide) (by decide +kernel) (by decide +kernel) ?_ ?_
  · norm_num at *; linarith
  · norm_num at *; linarith

theorem log1p_arg4 : Fin b32 0xB70FFFE5 ∧ R b32 0xB70FFFE5 = -(9437157 / 2 ^ 40) := by
  have := lit32 (x := 0xB70FFFE5) (m := 9437157) (k := 40) (s := true) (by decide) (by decide) (by decide +kernel)
  refine ⟨this.1, this.2.trans ?_⟩
  push_cast
  simp

theorem log1p_hard4 : Rounded b32 (Real.log (1 + -(9437157 / 2 ^ 40))) 0xB710000D := by
  have e : Real.log (1 + -(9437157 / 2 ^ 40)) = -(2 * ath (9437157 / 2199013818395)) := by
    rw [log1p_ath (by norm_num), show -(9437157 / 2 ^ 40 : ℝ) / (2 + -(9437157 / 2 ^ 40)) = -(9437157 / 2199013818395) by norm_num, ath_neg]; ring
  have p := le_ath (t := 9437157 / 2199013818395) (by norm_num) (by norm_num)
  have h := abs_le.1 (ath_small (t := 9437157 / 2199013818395) (by norm_num [abs_of_pos]))
  rw [abs_of_pos (by norm_num)] at h
  simp only [poly] at h
  rw [e]
  generalize ath (9437157 / 2199013818395) = q at *
  clear e
  have key : Rounded b32 (2 * q) 0x3710000d := by
    refine rounded_mid (a := 18874393) (b := 18874395) (k := 40) (by decide) (by decide) (by decide +kernel) (by decide +kernel) ?_ ?_
    · norm_num at *; linarith
    · norm_num at *; linarith
  have pos : 0 < 2 * q := by
    norm_num at *
    linarith
  have := rounded_sign key pos true
  simpa [show b32.pack true (b32.abs 0x3710000d) = 0xB710000D by decide] using this

theorem log1p_arg5 : Fin b32 0xBB0EC8C4 ∧ R b32 0xBB0EC8C4 = -(9357508 / 2 ^ 32) := by
  have := lit32 (x := 0xBB0EC8C4) (m := 9357508) (k := 32) (s := true) (by decide) (by decide) (by decide +kernel)
  refine ⟨this.1, this.2.trans ?_⟩
  push_cast
  simp

theorem log1p_hard5 : Rounded b32 (Real.log (1 + -(9357508 / 2 ^ 32))) 0xBB0EF0A5 := by
  have e : Real.log (1 + -(9357508 / 2 ^ 32)) = -(2 * ath (2339377 / 2145144271)) := by
    rw [log1p_ath (by norm_num), show -(9357508 / 2 ^ 32 : ℝ) / (2 + -(9357508 / 2 ^ 32)) = -(2339377 / 2145144271) by norm_num, ath_neg]; ring
  have p := le_ath (t := 2339377 / 2145144271) (by norm_num) (by norm_num)
  have h := abs_le.1 (ath_small (t := 2339377 / 2145144271) (by norm_num [abs_of_pos]))
  rw [abs_of_pos (by norm_num)] at h
  simp only [poly] at h
  rw [e]
  generalize ath (2339377 / 2145144271) = q at *
  clear e
  have key : Rounded b32 (2 * q) 0x3b0ef0a5 := by
    refine rounded_mid (a := 18735433) (b := 18735435) (k := 32) (by decide) (by decide) (by decide +kernel) (by decide +kernel) ?_ ?_
    · norm_num at *; linarith
    · norm_num at *; linarith
  have pos : 0 < 2 * q := by
    norm_num at *
    linarith
  have := rounded_sign key pos true
  simpa [show b32.pack true (b32.abs 0x3b0ef0a5) = 0xBB0EF0A5 by decide] using this

theorem log1p_arg6 : Fin b32 0x3EFD81AD ∧ R b32 0x3EFD81AD = 16613805 / 2 ^ 25 := by
  have := lit32 (x := 0x3EFD81AD) (m := 16613805) (k := 25) (s := false) (by decide) (by decide) (by decide +kernel)
  refine ⟨this.1, this.2.trans ?_⟩
  push_cast
  simp

theorem log1p_sharp6 : |Real.log (50168237 / 2 ^ 26) - (-0.29093403923780938755653213)| ≤ 1 / 10 ^ 20 := by
  have e : (((50168237 : ℝ) / 2 ^ 26) - 1) / (((50168237 : ℝ) / 2 ^ 26) + 1) = -(16940627 / 117277101) := by norm_num
  have h := ath_series (t := -(16940627 / 117277101)) (by norm_num [abs_of_pos, abs_of_neg])
  simp only [poly] at h
  norm_num [abs_of_pos, abs_of_neg] at h
  rw [log_ath (by norm_num), e]
  have h' := abs_le.1 h
  norm_num at h'
  norm_num
  exact abs_le.2 ⟨by linarith, by linarith⟩

theorem log1p_hard6 : Rounded b32 (Real.log (1 + 16613805 / 2 ^ 25)) 0x3ECDEEE1 := by
  have e : Real.log (1 + 16613805 / 2 ^ 25) = Real.log (50168237 / 2 ^ 26) + Real.log 2 := by
    rw [← Real.log_mul (by norm_num) (by norm_num)]; congr 1; norm_num
  have a := abs_le.1 log1p_sharp6
  have b := abs_le.1 log_two_sharp
  rw [e]
  generalize Real.log (50168237 / 2 ^ 26) = l at *
  refine rounded_mid (a := 26992065) (b := 26992067) (k := 25) (by decide) (by decide) (by decide +kernel) (by decide +kernel) ?_ ?_
  · norm_num at *; linarith
  · norm_num at *; linarith

theorem log1p_arg7 : Fin b32 0x6F31A8EC ∧ R b32 0x6F31A8EC = 11643116 * 2 ^ 72 := by
  have := lit32 (x := 0x6F31A8EC) (m := 11643116 * 2 ^ 72) (k := 0) (s := false) (by decide) (by decide) (by decide +kernel)
  refine ⟨this.1, this.2.trans ?_⟩
  push_cast
  norm_num

theorem log1p_hard7 : Rounded b32 (Real.log (1 + 11643116 * 2 ^ 72)) 0x42845A89 := by
  have l := abs_le.1 (log_lip (a := 1 + 11643116 * 2 ^ 72) (b := 11643116 * 2 ^ 72) (m := 2 ^ 76) (by norm_num) (by norm_num) (by norm_num))
  rw [show (1 : ℝ) + 11643116 * 2 ^ 72 - 11643116 * 2 ^ 72 = 1 by ring, abs_one] at l
  have e : Real.log (11643116 * 2 ^ 72) = Real.log (11643116 / 2 ^ 23) + 95 * Real.log 2 := by
    rw [show ((11643116 : ℝ) * 2 ^ 72) = 11643116 / 2 ^ 23 * 2 ^ 95 by norm_num, Real.log_mul (by norm_num) (by norm_num), Real.log_pow]; push_cast; ring
  have a := abs_le.1 log_sharp3
  have b := abs_le.1 log_two_sharp
  rw [e] at l
  generalize Real.log (11643116 / 2 ^ 23) = q at *
  generalize Real.log (1 + 11643116 * 2 ^ 72) = w at *
  generalize Real.log 2 = s at *
  clear e
  refine rounded_mid (a := 17347857) (b := 17347859) (k := 17) (by decide) (by decide) (by decide +kernel) (by decide +kernel) ?_ ?_
  · norm_num at *; linarith
  · norm_num at *; linarith

theorem log1p_arg8 : Fin b32 0x65D890D3 ∧ R b32 0x65D890D3 = 14192851 * 2 ^ 53 := by
  have := lit32 (x := 0x65D890D3) (m := 14192851 * 2 ^ 53) (k := 0) (s := false) (by decide) (by decide) (by decide +kernel)
  refine ⟨this.1, this.2.trans ?_⟩
  push_cast
  norm_num

theorem log1p_hard8 : Rounded b32 (Real.log (1 + 14192851 * 2 ^ 53)) 0x4254D1F9 := by
  have l := abs_le.1 (log_lip (a := 1 + 14192851 * 2 ^ 53) (b := 14192851 * 2 ^ 53) (m := 2 ^ 76) (by norm_num) (by norm_num) (by norm_num))
  rw [show (1 : ℝ) + 14192851 * 2 ^ 53 - 14192851 * 2 ^ 53 = 1 by ring, abs_one] at l
  have e : Real.log (14192851 * 2 ^ 53) = Real.log (14192851 / 2 ^ 24) + 77 * Real.log 2 := by
    rw [show ((14192851 : ℝ) * 2 ^ 53) = 14192851 / 2 ^ 24 * 2 ^ 77 by norm_num, Real.log_mul (by norm_num) (by norm_num), Real.log_pow]; push_cast; ring
  have a := abs_le.1 log_sharp2
  have b := abs_le.1 log_two_sharp
  rw [e] at l
  generalize Real.log (14192851 / 2 ^ 24) = q at *
  generalize Real.log (1 + 14192851 * 2 ^ 53) = w at *
  generalize Real.log 2 = s at *
  clear e
  refine rounded_mid (a := 27894769) (b := 27894771) (k := 18) (by decide) (by decide) (by decide +kernel) (by decide +kernel) ?_ ?_
  · norm_num at *; linarith
  · norm_num at *; linarith

theorem log1pf_finite {x : Nat} (hp : Pat b32 x) (hf : Fin b32 x) (h : -1 < R b32 x) :
    Accurate b32 (1 / 2 ^ 35) (Real.log (1 + R b32 x)) (log1pf x) := by
  have hinf : b32.inf = 0x7F800000 := rfl
  have hsb : b32.signBit = 0x80000000 := rfl
  have hp' : x < 2 ^ 32 := hp
  have hx : x < 0xBF800000 := by
    by_contra hc
    have hn : b32.neg x = true := by unfold Fmt.neg; rw [decide_eq_true_eq, hsb]; omega
    have := R_signed (F := b32) x
    rw [hn] at this
    have m : b32.mag 0x3F800000 ≤ b32.mag (b32.abs x) := b32.mag_mono (by unfold Fmt.abs; rw [hsb]; omega)
    rw [show b32.mag 0x3F800000 = 2 ^ b32.unit by decide +kernel] at m
    have m' : (2 : ℝ) ^ b32.unit ≤ b32.mag (b32.abs x) := by exact_mod_cast m
    have : (1 : ℝ) ≤ b32.mag (b32.abs x) / 2 ^ b32.unit := by rw [le_div_iff₀ (by positivity)]; linarith
    simp only [if_true] at *
    linarith
  have hs : ¬ (0x7F800000 : Int) ≤ s32 x := by
    have := hf
    unfold Fin Fmt.abs at this
    rw [hsb, hinf] at this
    unfold s32
    omega
  unfold log1pf
  rw [if_neg (by omega), if_neg (by omega), if_neg hs]
  cases c1 : b32.eq x 0x35400003
  swap
  · refine ⟨Real.log (1 + R b32 x), by simp, ?_⟩
    rw [(eq_R hf log1p_arg1.1).1 c1, log1p_arg1.2]
    simpa using log1p_hard1
  cases c2 : b32.eq x 0xB53FFFFD
  swap
  · refine ⟨Real.log (1 + R b32 x), by simp, ?_⟩
    rw [(eq_R hf log1p_arg2.1).1 c2, log1p_arg2.2]
    simpa using log1p_hard2
  cases c3 : b32.eq x 0x3710001B
  swap
  · refine ⟨Real.log (1 + R b32 x), by simp, ?_⟩
    rw [(eq_R hf log1p_arg3.1).1 c3, log1p_arg3.2]
    simpa using log1p_hard3
  cases c4 : b32.eq x 0xB70FFFE5
  swap
  · refine ⟨Real.log (1 + R b32 x), by simp, ?_⟩
    rw [(eq_R hf log1p_arg4.1).1 c4, log1p_arg4.2]
    simpa using log1p_hard4
  cases c5 : b32.eq x 0xBB0EC8C4
  swap
  · refine ⟨Real.log (1 + R b32 x), by simp, ?_⟩
    rw [(eq_R hf log1p_arg5.1).1 c5, log1p_arg5.2]
    simpa using log1p_hard5
  cases c6 : b32.eq x 0x3EFD81AD
  swap
  · refine ⟨Real.log (1 + R b32 x), by simp, ?_⟩
    rw [(eq_R hf log1p_arg6.1).1 c6, log1p_arg6.2]
    simpa using log1p_hard6
  cases c7 : b32.eq x 0x6F31A8EC
  swap
  · refine ⟨Real.log (1 + R b32 x), by simp, ?_⟩
    rw [(eq_R hf log1p_arg7.1).1 c7, log1p_arg7.2]
    simpa using log1p_hard7
  cases c8 : b32.eq x 0x65D890D3
  swap
  · refine ⟨Real.log (1 + R b32 x), by simp, ?_⟩
    rw [(eq_R hf log1p_arg8.1).1 c8, log1p_arg8.2]
    simpa using log1p_hard8
  obtain ⟨w1, w2, -, -⟩ := wideR hf
  have lo : -1 + 1 / 2 ^ 30 ≤ R b64 (wide x) := by
    rw [w2]
    rcases lt_or_ge (R b32 x) 0 with h0 | h0
    · have hn : b32.neg x = true := by
        cases e : b32.neg x
        · rw [R_signed, e] at h0
          have : (0 : ℝ) ≤ b32.mag (b32.abs x) / 2 ^ b32.unit := by positivity
          simp only [Bool.false_eq_true, if_false] at h0
          linarith
        · rfl
      have := R_signed (F := b32) x
      rw [hn] at this
      have m : b32.mag (b32.abs x) ≤ b32.mag 0x3F7FFFFF := b32.mag_mono (by unfold Fmt.abs; rw [hsb]; unfold Fmt.neg at hn; rw [decide_eq_true_eq, hsb] at hn; omega)
      have k := (lit32 (x := 0x3F7FFFFF) (m := 16777215) (k := 24) (s := false) (by decide) (by decide) (by decide +kernel)).2
      rw [R_signed, show b32.neg 0x3F7FFFFF = false by decide, show b32.abs 0x3F7FFFFF = 0x3F7FFFFF by decide] at k
      have m' : (b32.mag (b32.abs x) : ℝ) / 2 ^ b32.unit ≤ b32.mag 0x3F7FFFFF / 2 ^ b32.unit := by
        refine div_le_div_of_nonneg_right (by exact_mod_cast m) (by positivity)
      generalize (b32.mag (b32.abs x) : ℝ) / 2 ^ b32.unit = q at *
      generalize (b32.mag 0x3F7FFFFF : ℝ) / 2 ^ b32.unit = q' at *
      rw [this]
      norm_num at k ⊢
      linarith
    · have : (1 : ℝ) / 2 ^ 30 ≤ 1 := by norm_num
      linarith
  have hi : R b64 (wide x) ≤ 2 ^ 200 := by
    rw [w2]
    refine (le_abs_self _).trans ?_
    rw [abs_R]
    have m : b32.mag (b32.abs x) ≤ b32.mag b32.inf := b32.mag_mono (Nat.le_of_lt hf)
    rw [show b32.mag b32.inf = 2 ^ 128 * 2 ^ b32.unit by decide +kernel] at m
    have m' : (b32.mag (b32.abs x) : ℝ) ≤ 2 ^ 128 * 2 ^ b32.unit := by exact_mod_cast m
    rw [div_le_iff₀ (by positivity)]
    refine m'.trans (mul_le_mul_of_nonneg_right (by norm_num) (by positivity))
  have hz : R b64 (wide x) = 0 ∨ 1 / 2 ^ 150 ≤ |R b64 (wide x)| := by
    rw [w2]
    by_cases h0 : R b32 x = 0
    · exact Or.inl h0
    · right
      have := fin_ne_zero h0
      rw [show b32.unit = 149 from rfl] at this
      refine le_trans ?_ this
      norm_num
  have := (log1p_rel w1 lo hi hz).accurate (F := b32)
  rw [w2] at this
  simp only [Bool.false_eq_true, if_false]
  exact this

end Verif.Approx
