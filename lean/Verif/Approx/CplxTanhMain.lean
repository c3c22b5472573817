import Verif.Approx.CplxTanh

/-! # `ctanhf` at finite arguments -/

namespace Verif.Approx
open Verif.Float Verif.Approx.Spec
open Verif.Math.Spec (Pat)

/-- The sign in the result for a large real part. -/
theorem one_acc {x : Nat} {v η : ℝ} (hη : 0 ≤ η) (h : |(if b32.neg x then -1 else 1) - v| ≤ η * |v|) : Accurate b32 η v (b32.copysign 0x3F800000 x) := by
  refine ⟨_, h, ?_⟩
  have h1 := conv_rounded (G := b32) k_one.1
  rw [k_one.2, show b64.conv b32 one = 0x3F800000 by decide +kernel] at h1
  have h2 := rounded_sign h1 (by norm_num) (b32.neg x)
  have e1 : b32.copysign 0x3F800000 x = b32.pack (b32.neg x) (b32.abs 0x3F800000) := by
    unfold Fmt.copysign
    cases b32.neg x <;> decide
  rw [e1]
  convert h2 using 1
  cases b32.neg x <;> norm_num

set_option exponentiation.threshold 400 in
theorem ctanhf_finite {x y : Nat} (px : Pat b32 x) (hx : Fin b32 x) (py : Pat b32 y) (hy : Fin b32 y) :
    ∃ w, ctanhf (x, y) = some w ∧
      Accurate b32 (7 / 2 ^ 27) (Real.sinh (R b32 x) * Real.cosh (R b32 x) / (Real.sinh (R b32 x) ^ 2 + Real.cos (R b32 y) ^ 2)) w.1 ∧
      Accurate b32 (7 / 2 ^ 27) (Real.sin (R b32 y) * Real.cos (R b32 y) / (Real.sinh (R b32 x) ^ 2 + Real.cos (R b32 y) ^ 2)) w.2 := by
  obtain ⟨t, et, ht⟩ := tanh_ok px hx
  obtain ⟨c, ec, c1, l, sc⟩ := cis_ok py hy
  unfold ctanhf
  rw [et, Option.bind_some, ec, Option.map_some, if_neg (fun h => by rw [Fmt.not_nan_of_fin hx] at h; exact absurd h.1 (by decide)),
    if_neg (fun h => h (sub_self_zero hy))]
  have sc1 : |Real.sin (R b32 y) * Real.cos (R b32 y)| ≤ |Real.cos (R b32 y)| := by
    rw [abs_mul]
    have := mul_le_mul_of_nonneg_right (Real.abs_sin_le_one (R b32 y)) (abs_nonneg (Real.cos (R b32 y)))
    linarith
  have k1 := Real.abs_cos_le_one (R b32 y)
  have hsign := R_sign (F := b32) x
  generalize Real.sin (R b32 y) * Real.cos (R b32 y) = S at *
  generalize Real.cos (R b32 y) = k at *
  have kpos : 0 < |k| := lt_of_lt_of_le (by positivity) l
  have kk : k ^ 2 ≤ 1 := by rw [← sq_abs]; exact pow_le_one₀ (abs_nonneg _) k1
  have k0 : 0 < k ^ 2 := by rw [← sq_abs]; positivity
  have D0 : 0 < Real.sinh (R b32 x) ^ 2 + k ^ 2 := by have := sq_nonneg (Real.sinh (R b32 x)); linarith
  obtain ⟨s1, s2⟩ := sinh_exp |R b32 x|
  have hE := Real.exp_pos (2 * |R b32 x|)
  have hsq : Real.sinh (R b32 x) ^ 2 = Real.sinh |R b32 x| ^ 2 := by rw [← Real.abs_sinh, sq_abs]
  rcases ht with ht | ht
  · rw [if_neg (by rw [ht.gate]; decide)]
    refine ⟨_, rfl, ?_⟩
    have sq2 : Rel (b64.mul c.1 c.1) (k ^ 2) (1705 / 1000 / 2 ^ 26) := by
      rw [sq]
      refine c1.mul_tiny c1 (by norm_num) (le_Mx ?_) ?_ (by norm_num)
      · rw [show k * k = k ^ 2 by ring, abs_of_pos k0]
        generalize k ^ 2 = K at *
        norm_num; linarith
      · rw [abs_mul]
        calc (1 : ℝ) / 2 ^ 320 ≤ 1 / 2 ^ 302 := one_div_le_one_div_of_le (by positivity) (pow_le_pow_right₀ (by norm_num) (by norm_num))
          _ = 1 / 2 ^ 151 * (1 / 2 ^ 151) := by rw [div_mul_div_comm, one_mul, ← pow_add]
          _ ≤ _ := mul_le_mul l l (by positivity) (abs_nonneg _)
    have hs55 : Real.sinh (R b32 x) ^ 2 ≤ 2 ^ 55 := by
      rw [hsq, s2, div_le_iff₀ hE]
      have := ht.le
      have := Real.add_one_le_exp (2 * |R b32 x|)
      have := abs_nonneg (R b32 x)
      generalize Real.exp (2 * |R b32 x|) = E at *
      nlinarith
    have d := (ht.sq.mono (by norm_num)).add sq2 (sq_nonneg _) k0.le (le_Mx (by generalize k ^ 2 = K at *; norm_num at hs55 ⊢; linarith)) (η := 171 / 100 / 2 ^ 26) (by norm_num)
    have n1 : |Real.sinh (R b32 x) * Real.cosh (R b32 x) / (Real.sinh (R b32 x) ^ 2 + k ^ 2)| ≤ 2 ^ 240 := by
      rw [abs_div, abs_of_pos D0, div_le_iff₀ D0, abs_mul, abs_of_pos (Real.cosh_pos _)]
      have hc : Real.cosh (R b32 x) ≤ 2 ^ 28 := by
        have h1 := Real.cosh_sq (R b32 x)
        have h2 := Real.cosh_pos (R b32 x)
        refine abs_le_of_sq_le_sq' ?_ (by norm_num) |>.2
        rw [h1]; norm_num at *; linarith
      have am : 2 * (|Real.sinh (R b32 x)| * |k|) ≤ Real.sinh (R b32 x) ^ 2 + k ^ 2 := by
        rw [← sq_abs, ← sq_abs k]
        nlinarith [sq_nonneg (|Real.sinh (R b32 x)| - |k|)]
      have b1 : |Real.sinh (R b32 x)| ≤ 2 ^ 151 * (|Real.sinh (R b32 x)| * |k|) := by
        have : 1 ≤ 2 ^ 151 * |k| := by rw [div_le_iff₀ (by positivity)] at l; linarith
        calc |Real.sinh (R b32 x)| = |Real.sinh (R b32 x)| * 1 := by ring
          _ ≤ |Real.sinh (R b32 x)| * (2 ^ 151 * |k|) := mul_le_mul_of_nonneg_left this (abs_nonneg _)
          _ = _ := by ring
      have b2 : |Real.sinh (R b32 x)| * Real.cosh (R b32 x) ≤ 2 ^ 151 * (|Real.sinh (R b32 x)| * |k|) * 2 ^ 28 :=
        mul_le_mul b1 hc (Real.cosh_pos _).le (mul_nonneg (by norm_num) (mul_nonneg (abs_nonneg _) (abs_nonneg _)))
      generalize |Real.sinh (R b32 x)| * |k| = u at *
      generalize |Real.sinh (R b32 x)| * Real.cosh (R b32 x) = p at *
      generalize Real.sinh (R b32 x) ^ 2 + k ^ 2 = D at *
      clear * - am b2 D0
      norm_num at am b2 ⊢
      linarith
    have n2 : |S / (Real.sinh (R b32 x) ^ 2 + k ^ 2)| ≤ 2 ^ 240 := by
      rw [abs_div, abs_of_pos D0, div_le_iff₀ D0]
      have : 1 ≤ 2 ^ 151 * |k| := by rw [div_le_iff₀ (by positivity)] at l; linarith
      have b1 : |k| ≤ 2 ^ 151 * k ^ 2 := by
        rw [← sq_abs]
        calc |k| = 1 * |k| := by ring
          _ ≤ 2 ^ 151 * |k| * |k| := mul_le_mul_of_nonneg_right this kpos.le
          _ = _ := by ring
      have := sq_nonneg (Real.sinh (R b32 x))
      norm_num at *
      linarith
    exact ⟨quot_acc ht.num d (by norm_num) (by norm_num) D0.ne' (θ := 172 / 100 / 2 ^ 26) (by norm_num) (by norm_num) n1 (by norm_num),
      quot_acc sc d (by norm_num) (by norm_num) D0.ne' (θ := 345 / 100 / 2 ^ 26) (by norm_num) (by norm_num) n2 (by norm_num)⟩
  · rw [if_pos ht.gate]
    refine ⟨_, rfl, ?_⟩
    obtain ⟨-, hE52, hden⟩ := ht
    have hnum : Real.sinh (R b32 x) * Real.cosh (R b32 x) = (if b32.neg x then -1 else 1) * (Real.sinh |R b32 x| * Real.cosh |R b32 x|) := by
      rw [Real.cosh_abs]
      cases e : b32.neg x
      · rw [e] at hsign; simp at hsign; simp [← hsign]
      · rw [e] at hsign; simp at hsign
        conv_lhs => rw [hsign]
        simp
    rw [hsq, s2] at D0
    rw [hnum, hsq, s2, s1]
    have hq : 1 / 4 * (Real.exp (2 * |R b32 x|) - 1) * (Real.exp (2 * |R b32 x|) - 1) / Real.exp (2 * |R b32 x|) =
        1 / 4 * (Real.exp (2 * |R b32 x|) - 1) - (1 / 4 - 1 / 4 / Real.exp (2 * |R b32 x|)) := by field_simp
    have hp : (Real.exp (2 * |R b32 x|) - 1) * (1 / 4 + 1 / 4 / Real.exp (2 * |R b32 x|)) =
        1 / 4 * (Real.exp (2 * |R b32 x|) - 1) + (1 / 4 - 1 / 4 / Real.exp (2 * |R b32 x|)) := by field_simp
    rw [hq] at D0 ⊢
    rw [hp]
    generalize Real.exp (2 * |R b32 x|) = E at *
    have q0 : 0 < 1 / 4 / E := by positivity
    have q1 : 1 / 4 / E ≤ 1 / 4 := by rw [div_le_iff₀ hE]; norm_num at *; linarith
    generalize 1 / 4 / E = q at *
    have hW : 2 ^ 49 ≤ 1 / 4 * (E - 1) := by norm_num at *; linarith
    have hden : (Rel (b64.mul quarter t) (1 / 4 * (E - 1)) (2 / 10 ^ 12)) ∨ b64.mul quarter t = b64.inf ∧ (2 : ℝ) ^ 299 ≤ 1 / 4 * (E - 1) := by
      rcases hden with h | h
      · exact Or.inl h.1
      · exact Or.inr ⟨h.1, by have := h.2; norm_num at this ⊢; linarith⟩
    clear s2 s1 hq hp
    generalize 1 / 4 * (E - 1) = W at *
    have k0' := k0.le
    constructor
    · refine one_acc (by norm_num) ?_
      have hp0 : 0 < (W + (1 / 4 - q)) / (W - (1 / 4 - q) + k ^ 2) := div_pos (by norm_num at *; linarith) D0
      have key : |1 - (W + (1 / 4 - q)) / (W - (1 / 4 - q) + k ^ 2)| ≤ 7 / 2 ^ 27 * ((W + (1 / 4 - q)) / (W - (1 / 4 - q) + k ^ 2)) := by
        rw [one_sub_div D0.ne', abs_div, abs_of_pos D0, ← mul_div_assoc]
        refine div_le_div_of_nonneg_right (abs_le.2 ⟨?_, ?_⟩) D0.le <;> generalize k ^ 2 = K at * <;> norm_num at hW ⊢ <;> linarith
      cases b32.neg x
      · simp only [Bool.false_eq_true, if_false, one_mul]
        rw [abs_of_pos hp0]; exact key
      · simp only [if_true]
        rw [show (-1 : ℝ) * (W + (1 / 4 - q)) / (W - (1 / 4 - q) + k ^ 2) = -((W + (1 / 4 - q)) / (W - (1 / 4 - q) + k ^ 2)) by ring, abs_neg, abs_of_pos hp0,
          show (-1 : ℝ) - -((W + (1 / 4 - q)) / (W - (1 / 4 - q) + k ^ 2)) = -(1 - (W + (1 / 4 - q)) / (W - (1 / 4 - q) + k ^ 2)) by ring, abs_neg]
        exact key
    · have S1 : |S| ≤ 1 := sc1.trans k1
      rcases hden with hr | ⟨hi, h302⟩
      · have W0 : 0 < W := lt_of_lt_of_le (by norm_num) hW
        have n : |S / W| ≤ 2 ^ 240 := by
          rw [abs_div, abs_of_pos W0, div_le_iff₀ W0]
          norm_num at *; linarith
        have a := quot_acc sc hr (by norm_num) (by norm_num) W0.ne' (θ := 172 / 100 / 2 ^ 26) (η := 2 / 2 ^ 26) (by norm_num) (by norm_num) n (by norm_num)
        refine accurate_shift a (by norm_num) (κ := 1 / 2 ^ 40) ?_ (by norm_num)
        rw [show S / W - S / (W - (1 / 4 - q) + k ^ 2) = (S / (W - (1 / 4 - q) + k ^ 2)) * ((k ^ 2 - (1 / 4 - q)) / W) by
          have := D0.ne'
          rw [show k ^ 2 - (1 / 4 - q) = (W - (1 / 4 - q) + k ^ 2) - W by ring]
          generalize W - (1 / 4 - q) + k ^ 2 = D at *
          field_simp, abs_mul, mul_comm]
        refine mul_le_mul_of_nonneg_right ?_ (abs_nonneg _)
        rw [abs_div, abs_of_pos W0, div_le_iff₀ W0, abs_le]
        generalize k ^ 2 = K at *
        constructor <;> norm_num at hW ⊢ <;> linarith
      · have Dh : (2 : ℝ) ^ 298 ≤ W - (1 / 4 - q) + k ^ 2 := by norm_num at h302 ⊢; linarith
        have hv : |S / (W - (1 / 4 - q) + k ^ 2)| ≤ 1 / 2 ^ 151 := by
          rw [abs_div, abs_of_pos D0]
          refine div_le_div₀ (by norm_num) S1 (by norm_num) (le_trans (by norm_num) Dh)
        have fin : Fin b64 (b64.mul c.2 c.1) := by
          rcases sc with ⟨-, h⟩ | ⟨-, h⟩
          · exact h.fin
          · unfold Fin; rw [h]; decide
        rw [hi, fdiv_inf fin (by decide), narrow_zero64, show b64.neg b64.inf = false by decide]
        rcases sc with ⟨h0, h⟩ | ⟨h0, -⟩
        · rw [(neg_of_rel h (by norm_num) h0).1]
          have := sign_div h0 D0.ne'
          rw [decide_eq_false (not_lt.2 D0.le)] at this
          rw [this]
          exact tiny_acc (by norm_num) hv (div_ne_zero h0 D0.ne')
        · rw [h0, zero_div]
          exact zero_acc' _

end Verif.Approx
