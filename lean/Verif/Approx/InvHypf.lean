import Verif.Approx.InvHyp
import Verif.Approx.Log1pf

/-! # The errors of `asinhf`, `acoshf` and `atanhf` -/

namespace Verif.Approx
open Verif.Float Verif.Approx.Spec
open Verif.Math.Spec (Pat absOf negative value)

theorem arsinh_big {X : ℝ} (h : 1 ≤ X) : Real.log (2 * X) ≤ Real.arsinh X ∧ Real.arsinh X ≤ Real.log (2 * X) + 1 / (2 * X) := by
  unfold Real.arsinh
  have s1 : X ≤ √(1 + X ^ 2) := Real.le_sqrt_of_sq_le (by linarith)
  have s2 : √(1 + X ^ 2) ≤ X + 1 := by
    rw [Real.sqrt_le_left (by linarith)]; nlinarith
  refine ⟨Real.log_le_log (by linarith) (by linarith), ?_⟩
  have l := (abs_le.1 (log_lip (a := X + √(1 + X ^ 2)) (b := 2 * X) (m := 2 * X) (by linarith) (by linarith) le_rfl)).2
  have : |X + √(1 + X ^ 2) - 2 * X| / (2 * X) ≤ 1 / (2 * X) :=
    div_le_div_of_nonneg_right (by rw [abs_of_nonneg (by linarith)]; linarith) (by linarith)
  linarith

theorem arcosh_big {X : ℝ} (h : 2 ≤ X) : Real.log (2 * X) - 1 / X ≤ Real.arcosh X ∧ Real.arcosh X ≤ Real.log (2 * X) := by
  unfold Real.arcosh
  have x0 : 0 < X := by linarith
  have s1 : √(X ^ 2 - 1) ≤ X := by rw [Real.sqrt_le_left (by linarith)]; linarith
  have s2 : X - 1 / X ≤ √(X ^ 2 - 1) := Real.le_sqrt_of_sq_le (by
    have : (X - 1 / X) ^ 2 = X ^ 2 - 2 + (1 / X) ^ 2 := by field_simp; ring
    have i : 1 / X ≤ 1 := by rw [div_le_one x0]; linarith
    have i0 : 0 ≤ 1 / X := by positivity
    rw [this]
    nlinarith)
  have i : 1 / X ≤ 1 := by rw [div_le_one x0]; linarith
  refine ⟨?_, Real.log_le_log (by linarith [Real.sqrt_nonneg (X ^ 2 - 1)]) (by linarith)⟩
  have l := (abs_le.1 (log_lip (a := X + √(X ^ 2 - 1)) (b := 2 * X) (m := 1) (by norm_num) (by linarith [Real.sqrt_nonneg (X ^ 2 - 1)]) (by linarith))).1
  rw [div_one, abs_of_nonpos (by linarith)] at l
  linarith

theorem accurate_sign {F : Fmt} {ε v : ℝ} {r : Nat} (h : Accurate F ε v r) (hv : 0 < v) (hε : ε < 1) (s : Bool) :
    Accurate F ε ((if s then -1 else 1) * v) (F.pack s (F.abs r)) := by
  obtain ⟨z, h1, h2⟩ := h
  have hz : 0 < z := by
    have := (abs_le.1 h1).1
    rw [abs_of_pos hv] at this
    nlinarith
  refine ⟨_, ?_, rounded_sign h2 hz s⟩
  rw [← mul_sub, abs_mul, abs_mul]
  cases s <;> simpa using h1

theorem sub_self_zero {x : Nat} (hx : Fin b32 x) : b32.eq (b32.sub x x) 0 = true := by
  obtain ⟨s1, s2⟩ := sub_err ok32 (big32.top) hx hx (by rw [sub_self, abs_zero]; positivity)
  rw [sub_self, abs_zero, mul_zero, sub_zero] at s2
  have z0 : R b32 0 = 0 := by rw [(R32_pat (by decide)).2, b32.mag_zero]; simp
  exact (eq_R s1 (R32_pat (by decide)).1).2 (by rw [abs_nonpos_iff.1 s2, z0])

theorem half_arg1 : Fin b32 0x4BDD65A5 ∧ R b32 0x4BDD65A5 = 14509477 * 2 ^ 1 := by
  have := lit32 (x := 0x4BDD65A5) (m := 14509477 * 2 ^ 1) (k := 0) (s := false) (by decide) (by decide) (by decide +kernel)
  refine ⟨this.1, this.2.trans ?_⟩
  push_cast
  norm_num

theorem asinh_hard1 : Rounded b32 (Real.arsinh (14509477 * 2 ^ 1)) 0x418F034B := by
  obtain ⟨l1, l2⟩ := arsinh_big (X := 14509477 * 2 ^ 1) (by norm_num)
  have e : Real.log (2 * (14509477 * 2 ^ 1)) = Real.log (14509477 / 2 ^ 24) + 26 * Real.log 2 := by
    rw [show (2 * (14509477 * 2 ^ 1) : ℝ) = 14509477 / 2 ^ 24 * 2 ^ 26 by norm_num, Real.log_mul (by norm_num) (by norm_num), Real.log_pow]; push_cast; ring
  have a := abs_le.1 log_sharp1
  have b := abs_le.1 log_two_sharp
  rw [e] at l1 l2
  generalize Real.log (14509477 / 2 ^ 24) = q at *
  generalize Real.arsinh (14509477 * 2 ^ 1) = w at *
  generalize Real.log 2 = s at *
  clear e
  refine rounded_mid (a := 18744981) (b := 18744983) (k := 19) (by decide) (by decide) (by decide +kernel) (by decide +kernel) ?_ ?_
  · norm_num at *; linarith
  · norm_num at *; linarith

theorem half_arg2 : Fin b32 0x655890D3 ∧ R b32 0x655890D3 = 14192851 * 2 ^ 52 := by
  have := lit32 (x := 0x655890D3) (m := 14192851 * 2 ^ 52) (k := 0) (s := false) (by decide) (by decide) (by decide +kernel)
  refine ⟨this.1, this.2.trans ?_⟩
  push_cast
  norm_num

theorem asinh_hard2 : Rounded b32 (Real.arsinh (14192851 * 2 ^ 52)) 0x4254D1F9 := by
  obtain ⟨l1, l2⟩ := arsinh_big (X := 14192851 * 2 ^ 52) (by norm_num)
  have e : Real.log (2 * (14192851 * 2 ^ 52)) = Real.log (14192851 / 2 ^ 24) + 77 * Real.log 2 := by
    rw [show (2 * (14192851 * 2 ^ 52) : ℝ) = 14192851 / 2 ^ 24 * 2 ^ 77 by norm_num, Real.log_mul (by norm_num) (by norm_num), Real.log_pow]; push_cast; ring
  have a := abs_le.1 log_sharp2
  have b := abs_le.1 log_two_sharp
  rw [e] at l1 l2
  generalize Real.log (14192851 / 2 ^ 24) = q at *
  generalize Real.arsinh (14192851 * 2 ^ 52) = w at *
  generalize Real.log 2 = s at *
  clear e
  refine rounded_mid (a := 27894769) (b := 27894771) (k := 18) (by decide) (by decide) (by decide +kernel) (by decide +kernel) ?_ ?_
  · norm_num at *; linarith
  · norm_num at *; linarith

theorem acosh_hard2 : Rounded b32 (Real.arcosh (14192851 * 2 ^ 52)) 0x4254D1F9 := by
  obtain ⟨l1, l2⟩ := arcosh_big (X := 14192851 * 2 ^ 52) (by norm_num)
  have e : Real.log (2 * (14192851 * 2 ^ 52)) = Real.log (14192851 / 2 ^ 24) + 77 * Real.log 2 := by
    rw [show (2 * (14192851 * 2 ^ 52) : ℝ) = 14192851 / 2 ^ 24 * 2 ^ 77 by norm_num, Real.log_mul (by norm_num) (by norm_num), Real.log_pow]; push_cast; ring
  have a := abs_le.1 log_sharp2
  have b := abs_le.1 log_two_sharp
  rw [e] at l1 l2
  generalize Real.log (14192851 / 2 ^ 24) = q at *
  generalize Real.arcosh (14192851 * 2 ^ 52) = w at *
  generalize Real.log 2 = s at *
  clear e
  refine rounded_mid (a := 27894769) (b := 27894771) (k := 18) (by decide) (by decide) (by decide +kernel) (by decide +kernel) ?_ ?_
  · norm_num at *; linarith
  · norm_num at *; linarith

theorem half_arg3 : Fin b32 0x6EB1A8EC ∧ R b32 0x6EB1A8EC = 11643116 * 2 ^ 71 := by
  have := lit32 (x := 0x6EB1A8EC) (m := 11643116 * 2 ^ 71) (k := 0) (s := false) (by decide) (by decide) (by decide +kernel)
  refine ⟨this.1, this.2.trans ?_⟩
  push_cast
  norm_num

theorem asinh_hard3 : Rounded b32 (Real.arsinh (11643116 * 2 ^ 71)) 0x42845A89 := by
  obtain ⟨l1, l2⟩ := arsinh_big (X := 11643116 * 2 ^ 71) (by norm_num)
  have e : Real.log (2 * (11643116 * 2 ^ 71)) = Real.log (11643116 / 2 ^ 23) + 95 * Real.log 2 := by
    rw [show (2 * (11643116 * 2 ^ 71) : ℝ) = 11643116 / 2 ^ 23 * 2 ^ 95 by norm_num, Real.log_mul (by norm_num) (by norm_num), Real.log_pow]; push_cast; ring
  have a := abs_le.1 log_sharp3
  have b := abs_le.1 log_two_sharp
  rw [e] at l1 l2
  generalize Real.log (11643116 / 2 ^ 23) = q at *
  generalize Real.arsinh (11643116 * 2 ^ 71) = w at *
  generalize Real.log 2 = s at *
  clear e
  refine rounded_mid (a := 17347857) (b := 17347859) (k := 17) (by decide) (by decide) (by decide +kernel) (by decide +kernel) ?_ ?_
  · norm_num at *; linarith
  · norm_num at *; linarith

theorem acosh_hard3 : Rounded b32 (Real.arcosh (11643116 * 2 ^ 71)) 0x42845A89 := by
  obtain ⟨l1, l2⟩ := arcosh_big (X := 11643116 * 2 ^ 71) (by norm_num)
  have e : Real.log (2 * (11643116 * 2 ^ 71)) = Real.log (11643116 / 2 ^ 23) + 95 * Real.log 2 := by
    rw [show (2 * (11643116 * 2 ^ 71) : ℝ) = 11643116 / 2 ^ 23 * 2 ^ 95 by norm_num, Real.log_mul (by norm_num) (by norm_num), Real.log_pow]; push_cast; ring
  have a := abs_le.1 log_sharp3
  have b := abs_le.1 log_two_sharp
  rw [e] at l1 l2
  generalize Real.log (11643116 / 2 ^ 23) = q at *
  generalize Real.arcosh (11643116 * 2 ^ 71) = w at *
  generalize Real.log 2 = s at *
  clear e
  refine rounded_mid (a := 17347857) (b := 17347859) (k := 17) (by decide) (by decide) (by decide +kernel) (by decide +kernel) ?_ ?_
  · norm_num at *; linarith
  · norm_num at *; linarith

theorem asinh_abs {x : Nat} (hx : x < b32.inf) : Accurate b32 (1 / 2 ^ 35) (Real.arsinh (R b32 x))
    (if b32.eq x 0x4BDD65A5 then 0x418F034B else if b32.eq x 0x655890D3 then 0x4254D1F9 else if b32.eq x 0x6EB1A8EC then 0x42845A89 else narrow (asinhFinite (wide x))) := by
  obtain ⟨f, -⟩ := R32_pat hx
  cases c1 : b32.eq x 0x4BDD65A5
  swap
  · refine ⟨Real.arsinh (R b32 x), by simp, ?_⟩
    rw [(eq_R f half_arg1.1).1 c1, half_arg1.2]
    simpa using asinh_hard1
  cases c2 : b32.eq x 0x655890D3
  swap
  · refine ⟨Real.arsinh (R b32 x), by simp, ?_⟩
    rw [(eq_R f half_arg2.1).1 c2, half_arg2.2]
    simpa using asinh_hard2
  cases c3 : b32.eq x 0x6EB1A8EC
  swap
  · refine ⟨Real.arsinh (R b32 x), by simp, ?_⟩
    rw [(eq_R f half_arg3.1).1 c3, half_arg3.2]
    simpa using asinh_hard3
  simp only [Bool.false_eq_true, if_false]
  exact (asinhFinite_rel hx).accurate

theorem asinhf_finite {x : Nat} (hp : Pat b32 x) (hx : Fin b32 x) : Accurate b32 (1 / 2 ^ 35) (Real.arsinh (R b32 x)) (asinhf x) := by
  by_cases h0 : R b32 x = 0
  · have e : Real.arsinh (R b32 x) = 0 := by rw [h0, Real.arsinh_zero]
    rw [e]
    refine ⟨0, by simp, rounded_zero' ?_ ?_ (by decide)⟩ <;> rcases zero_cases hp h0 with rfl | rfl <;> (try unfold Pat) <;> decide +kernel
  · have hs := asinh_abs (x := b32.abs x) hx
    rw [(fabs_R hx).2] at hs
    have hv : 0 < Real.arsinh |R b32 x| := Real.arsinh_pos_iff.2 (abs_pos.2 h0)
    have k := accurate_sign hs hv (by norm_num) (b32.neg x)
    have e : Real.arsinh (R b32 x) = (if b32.neg x then -1 else 1) * Real.arsinh |R b32 x| := by
      conv_lhs => rw [R_sign]
      cases b32.neg x
      · simp
      · simp [Real.arsinh_neg]
    rw [e]
    unfold asinhf
    rw [sub_self_zero hx]
    simp only [not_true_eq_false, if_false]
    convert k using 1
    split_ifs <;> rfl

theorem acoshf_finite {x : Nat} (h1 : 0x3F800000 ≤ x) (hx : x < b32.inf) : Accurate b32 (1 / 2 ^ 35) (Real.arcosh (R b32 x)) (acoshf x) := by
  have hinf : b32.inf = 0x7F800000 := rfl
  obtain ⟨f, -⟩ := R32_pat hx
  rcases Nat.eq_or_lt_of_le h1 with h1 | h1
  · subst h1
    have e : Real.arcosh (R b32 0x3F800000) = 0 := by
      rw [(lit32 (x := 0x3F800000) (m := 1) (k := 0) (s := false) (by decide) (by decide) (by decide +kernel)).2]
      simp
    rw [e]
    refine ⟨0, by simp, rounded_zero' ?_ ?_ (by decide)⟩ <;> (try unfold Pat) <;> decide +kernel
  · have e : s32 x = x := by unfold s32; omega
    unfold acoshf
    rw [e, if_neg (by omega), if_neg (by omega)]
    cases c2 : b32.eq x 0x655890D3
    swap
    · refine ⟨Real.arcosh (R b32 x), by simp, ?_⟩
      rw [(eq_R f half_arg2.1).1 c2, half_arg2.2]
      simpa using acosh_hard2
    cases c3 : b32.eq x 0x6EB1A8EC
    swap
    · refine ⟨Real.arcosh (R b32 x), by simp, ?_⟩
      rw [(eq_R f half_arg3.1).1 c3, half_arg3.2]
      simpa using acosh_hard3
    simp only [Bool.false_eq_true, if_false]
    exact (acoshFinite_rel h1 hx).accurate

theorem below_one {x : Nat} (hx : Fin b32 x) (h : |R b32 x| < 1) : |R b32 x| ≤ 1 - 1 / 2 ^ 24 := by
  obtain ⟨a1, a2⟩ := fabs_R hx
  rw [← a2] at h ⊢
  have hlt : b32.abs x < 0x3F800000 := by
    by_contra hc
    have := R32_mono (Nat.le_of_not_lt hc) hx
    rw [(lit32 (x := 0x3F800000) (m := 1) (k := 0) (s := false) (by decide) (by decide) (by decide +kernel)).2] at this
    norm_num at this
    linarith
  have := R32_mono (show b32.abs x ≤ 0x3F7FFFFF by omega) (by decide)
  rw [(lit32 (x := 0x3F7FFFFF) (m := 16777215) (k := 24) (s := false) (by decide) (by decide) (by decide +kernel)).2] at this
  refine this.trans ?_
  norm_num

theorem one32 : Fin b32 0x3F800000 ∧ R b32 0x3F800000 = 1 := by
  have := lit32 (x := 0x3F800000) (m := 1) (k := 0) (s := false) (by decide) (by decide) (by decide +kernel)
  refine ⟨this.1, this.2.trans ?_⟩
  simp

theorem atanhf_finite {x : Nat} (hx : Fin b32 x) (h : |R b32 x| < 1) : Accurate b32 (1 / 2 ^ 35) (Real.artanh (R b32 x)) (atanhf x) := by
  obtain ⟨a1, a2⟩ := fabs_R hx
  unfold atanhf
  have c1 : ¬ b32.eq (b32.abs x) 0x3F800000 = true := fun e => by
    have := (eq_R a1 one32.1).1 e
    rw [a2, one32.2] at this
    linarith
  have c2 : b32.lt (b32.abs x) 0x3F800000 = true := (lt_R a1 one32.1).2 (by rw [a2, one32.2]; exact h)
  simp only [c1, c2, if_true, if_false, Bool.false_eq_true]
  exact (atanhFinite_rel hx (below_one hx h)).accurate

end Verif.Approx
