import Verif.Approx.Atan2Small
import Verif.Approx.Asinf
import Mathlib.Analysis.SpecialFunctions.Complex.Arg

/-! # The parts of `atan2f` -/

namespace Verif.Approx
open Verif.Float Verif.Approx.Spec
open Verif.Math.Spec (Pat)

/-! ### The argument of a complex number -/

theorem arg_polar {X Y r θ : ℝ} (hr : 0 < r) (h1 : -Real.pi < θ) (h2 : θ ≤ Real.pi) (hX : X = r * Real.cos θ) (hY : Y = r * Real.sin θ) : Complex.arg ⟨X, Y⟩ = θ := by
  rw [← Complex.arg_mul_cos_add_sin_mul_I hr ⟨h1, h2⟩]
  congr 1
  apply Complex.ext
  · rw [hX]; simp [Complex.cos_ofReal_re, Complex.sin_ofReal_im]
  · rw [hY]; simp [Complex.sin_ofReal_re, Complex.cos_ofReal_im]

theorem sin_arctan' (t : ℝ) : Real.sin (Real.arctan t) = t * Real.cos (Real.arctan t) := by
  have h := Real.tan_arctan t
  rw [Real.tan_eq_sin_div_cos, div_eq_iff (Real.cos_arctan_pos t).ne'] at h
  exact h

theorem arg_right {X Y : ℝ} (hX : 0 < X) : Complex.arg ⟨X, Y⟩ = Real.arctan (Y / X) := by
  have c := Real.cos_arctan_pos (Y / X)
  have b1 := Real.neg_pi_div_two_lt_arctan (Y / X)
  have b2 := Real.arctan_lt_pi_div_two (Y / X)
  have hp := Real.pi_pos
  refine arg_polar (r := X / Real.cos (Real.arctan (Y / X))) (by positivity) (by linarith) (by linarith) (by field_simp) ?_
  rw [sin_arctan']
  field_simp

theorem arg_left {X Y : ℝ} (s : Bool) (hX : X < 0) (hY : Y ≠ 0) (hs : Y = sg s * |Y|) : Complex.arg ⟨X, Y⟩ = sg s * Real.pi - Real.arctan (Y / |X|) := by
  have c := Real.cos_arctan_pos (Y / |X|)
  have b1 := Real.neg_pi_div_two_lt_arctan (Y / |X|)
  have b2 := Real.arctan_lt_pi_div_two (Y / |X|)
  have hp := Real.pi_pos
  have hx : 0 < |X| := abs_pos.2 hX.ne
  have hy := abs_pos.2 hY
  have hXa : X = -|X| := by rw [abs_of_neg hX]; ring
  have sn := sin_arctan' (Y / |X|)
  cases s
  · simp only [sg, Bool.false_eq_true, if_false, one_mul] at hs ⊢
    have p : 0 < Real.arctan (Y / |X|) := Real.arctan_pos.2 (by rw [hs]; positivity)
    refine arg_polar (r := |X| / Real.cos (Real.arctan (Y / |X|))) (by positivity) (by linarith) (by linarith) ?_ ?_
    · rw [Real.cos_pi_sub, mul_neg, div_mul_cancel₀ _ c.ne']; exact hXa
    · rw [Real.sin_pi_sub, sn]; field_simp
  · simp only [sg, if_true, neg_mul, one_mul] at hs ⊢
    have p : Real.arctan (Y / |X|) < 0 := Real.arctan_lt_zero.2 (by rw [hs, neg_div]; have : 0 < |Y| / |X| := by positivity
                                                                    linarith)
    refine arg_polar (r := |X| / Real.cos (Real.arctan (Y / |X|))) (by positivity) (by linarith) (by linarith) ?_ ?_
    · rw [show -Real.pi - Real.arctan (Y / |X|) = -(Real.arctan (Y / |X|) + Real.pi) by ring, Real.cos_neg, Real.cos_add_pi, mul_neg, div_mul_cancel₀ _ c.ne']; exact hXa
    · rw [show -Real.pi - Real.arctan (Y / |X|) = -(Real.arctan (Y / |X|) + Real.pi) by ring, Real.sin_neg, Real.sin_add_pi, neg_neg, sn]; field_simp

theorem arg_steep {X Y : ℝ} (s : Bool) (hY : Y ≠ 0) (hs : Y = sg s * |Y|) : Complex.arg ⟨X, Y⟩ = sg s * (Real.pi / 2) - Real.arctan (X / Y) := by
  have c := Real.cos_arctan_pos (X / Y)
  have b1 := Real.neg_pi_div_two_lt_arctan (X / Y)
  have b2 := Real.arctan_lt_pi_div_two (X / Y)
  have hp := Real.pi_pos
  have hy := abs_pos.2 hY
  have sn := sin_arctan' (X / Y)
  refine arg_polar (r := |Y| / Real.cos (Real.arctan (X / Y))) (by positivity) ?_ ?_ ?_ ?_
  · cases s <;> simp only [sg, Bool.false_eq_true, if_false, if_true] <;> linarith
  · cases s <;> simp only [sg, Bool.false_eq_true, if_false, if_true] <;> linarith
  · cases s
    · simp only [sg, Bool.false_eq_true, if_false, one_mul] at hs ⊢
      rw [Real.cos_pi_div_two_sub, sn, ← hs]; field_simp
    · simp only [sg, if_true, neg_mul, one_mul] at hs ⊢
      rw [show -(Real.pi / 2) - Real.arctan (X / Y) = -(Real.arctan (X / Y) + Real.pi / 2) by ring, Real.cos_neg, Real.cos_add_pi_div_two, sn, show |Y| = -Y by linarith]
      field_simp
  · cases s
    · simp only [sg, Bool.false_eq_true, if_false, one_mul] at hs ⊢
      rw [Real.sin_pi_div_two_sub, ← hs]; field_simp
    · simp only [sg, if_true, neg_mul, one_mul] at hs ⊢
      rw [show -(Real.pi / 2) - Real.arctan (X / Y) = -(Real.arctan (X / Y) + Real.pi / 2) by ring, Real.sin_neg, Real.sin_add_pi_div_two, show |Y| = -Y by linarith]
      field_simp

/-! ### The kernel at tiny arguments -/

theorem neg_false {x : Nat} (h : 0 < R b64 x) : b64.neg x = false := by
  by_contra c
  rw [Bool.not_eq_false] at c
  have := R_sign (F := b64) x
  rw [c] at this
  simp only [if_true] at this
  linarith [abs_nonneg (R b64 x)]

theorem fdiv_neg {x y : Nat} (hx : Fin b64 x) (hy : Fin b64 y) (h0 : R b64 y ≠ 0) : b64.neg (Arith.fdiv b64 x y) = (b64.neg x != b64.neg y) := by
  have hy1 : b64.abs y ≠ 0 := by
    intro e
    apply h0
    rw [R_signed, e, b64.mag_zero]; simp
  have hm := Fmt.mag_pos (F := b64) (Nat.pos_of_ne_zero hy1)
  unfold Arith.fdiv
  rw [Fmt.not_nan_of_fin hx, Fmt.not_nan_of_fin hy, Fmt.isFin_iff.2 hx, Fmt.isFin_iff.2 hy, if_neg (by simp), if_pos rfl, if_pos rfl, if_neg hy1]
  exact Fmt.neg_pack (lt_of_le_of_lt (rnd_le _ _ hm) Fmt.inf_lt)

theorem mul_neg' {x y : Nat} (hx : Fin b64 x) (hy : Fin b64 y) : b64.neg (b64.mul x y) = (b64.neg x != b64.neg y) := by
  rw [Fmt.mul_fin hx hy]
  exact Fmt.neg_pack (lt_of_le_of_lt (rnd_le _ _ (Nat.two_pow_pos _)) Fmt.inf_lt)

/-- At tiny arguments only the sign is of interest. -/
theorem kernel_tiny {x : Nat} (hx : Fin b64 x) (h : |R b64 x| ≤ 1.01 / 2 ^ 155) :
    Fin b64 (kernelAtan x) ∧ |R b64 (kernelAtan x)| ≤ 1 / 2 ^ 151 ∧ b64.neg (kernelAtan x) = b64.neg x := by
  have h1 : |R b64 x| ≤ 1 := h.trans (by norm_num)
  obtain ⟨l1, l2, l3, l4⟩ := at_link
  have h2 : R b64 x ^ 2 ≤ 1 := by rw [← sq_abs]; exact pow_le_one₀ (abs_nonneg _) h1
  have hn := at_num (sq_nonneg (R b64 x)) h2
  have hd := at_den (sq_nonneg (R b64 x)) h2
  obtain ⟨s1, s2⟩ := square_ap hx h1
  have len : ∀ c : List Nat, c.length ≤ 7 → (13 * c.length / 2 ^ 53 : ℝ) ≤ 91 / 2 ^ 53 := fun c h => by
    have : (c.length : ℝ) ≤ 7 := by exact_mod_cast h
    gcongr
    linarith
  have an := (horner_ev s1 s2 atanN atN l1 l3 (by decide) (by decide)).mono (len _ (by decide))
  have ad := (horner_ev s1 s2 atanD atD l2 l4 (by decide) (by decide)).mono (len _ (by decide))
  have bn := ev_div_le s2 l3
  have bd := ev_div_le s2 l4
  unfold kernelAtan
  simp only
  have cn : 1 / 4 ≤ ev (R b64 x ^ 2) atN / 2 ^ 68 := by rw [le_div_iff₀ (by positivity)]; norm_num at hn ⊢; linarith
  have cd : 1 / 4 ≤ ev (R b64 x ^ 2) atD / 2 ^ 68 := by rw [le_div_iff₀ (by positivity)]; norm_num at hd ⊢; linarith
  generalize ev (R b64 x ^ 2) atN / 2 ^ 68 = N at *
  generalize ev (R b64 x ^ 2) atD / 2 ^ 68 = D at *
  generalize horner (b64.mul x x) atanN = a at *
  generalize horner (b64.mul x x) atanD = b at *
  have a2 := abs_le.1 an.err
  have b2 := abs_le.1 ad.err
  have ra : 0.24 ≤ R b64 a := by norm_num at a2 ⊢; linarith
  have rb : 0.24 ≤ R b64 b := by norm_num at b2 ⊢; linarith
  have bn' := abs_le.1 bn
  have ra' : R b64 a ≤ 3.01 := by norm_num at a2 ⊢; linarith
  have pa : 0 < R b64 a := lt_of_lt_of_le (by norm_num) ra
  have pb : 0 < R b64 b := lt_of_lt_of_le (by norm_num) rb
  have xa : |R b64 x * R b64 a| ≤ 3.05 / 2 ^ 155 := by
    rw [abs_mul, abs_of_pos pa]
    calc |R b64 x| * R b64 a ≤ 1.01 / 2 ^ 155 * 3.01 := mul_le_mul h ra' pa.le (by positivity)
      _ ≤ _ := by norm_num
  obtain ⟨m1, m2⟩ := mul_err top_big hx an.fin (xa.trans (le_Mx (by norm_num)))
  have m3 := mul_neg' hx an.fin
  rw [neg_false pa, Bool.bne_false] at m3
  have e5 := eta64
  rw [eps64] at m2
  have m4 : |R b64 (b64.mul x a)| ≤ 3.06 / 2 ^ 155 := by
    have := abs_sub_abs_le_abs_sub (R b64 (b64.mul x a)) (R b64 x * R b64 a)
    generalize |R b64 x * R b64 a| = u at *
    norm_num at *
    linarith
  generalize b64.mul x a = m at *
  have q1 : |R b64 m / R b64 b| ≤ 12.8 / 2 ^ 155 := by
    rw [abs_div, abs_of_pos pb, div_le_iff₀ pb]
    norm_num at m4 rb ⊢
    linarith
  obtain ⟨d1, d2⟩ := div_err top_big m1 ad.fin pb.ne' (q1.trans (le_Mx (by norm_num)))
  rw [eps64] at d2
  refine ⟨d1, ?_, by rw [fdiv_neg m1 ad.fin pb.ne', m3, neg_false pb, Bool.bne_false]⟩
  have := abs_sub_abs_le_abs_sub (R b64 (Arith.fdiv b64 m b)) (R b64 m / R b64 b)
  generalize |R b64 m / R b64 b| = u at *
  norm_num at *
  linarith

theorem arctan_abs (t : ℝ) : |Real.arctan t| ≤ |t| := by
  have := arctan_lip t 0
  simpa using this

/-- The kernel at any argument up to one. -/
theorem kernel_ap {x : Nat} (hx : Fin b64 x) (h : |R b64 x| ≤ 1) : Ap (kernelAtan x) (Real.arctan (R b64 x)) (1 / 2 ^ 42) := by
  have e := arctan_abs (R b64 x)
  by_cases h0 : 1 / 2 ^ 160 ≤ |R b64 x|
  · have k := kernelAtan_rel hx h h0
    refine ⟨k.fin, k.err.trans ?_⟩
    have := e.trans h
    norm_num at this ⊢
    linarith
  · obtain ⟨k1, k2, -⟩ := kernel_tiny hx ((le_of_not_ge h0).trans (by norm_num))
    refine ⟨k1, (abs_sub _ _).trans ?_⟩
    have : |R b64 x| < 1 / 2 ^ 160 := not_le.1 h0
    norm_num at *
    linarith

/-! ### The quotient of two floats -/

theorem ratio_lt {x y : Nat} (h : b32.abs x < b32.abs y) : |R b32 x / R b32 y| ≤ 1 - 1 / 2 ^ 26 := by
  have h1 : b32.mag (b32.abs x + 1) ≤ b32.mag (b32.abs y) := b32.mag_mono h
  rw [b32.mag_succ] at h1
  obtain ⟨m, hm, hl⟩ := Fmt.mag_form (F := b32) (b32.abs x)
  have h2 : b32.mag (b32.abs x) ≤ 2 ^ 25 * b32.ulp (b32.abs x) := by
    rw [hm]
    exact Nat.mul_le_mul_right _ (le_trans hl.le (by decide))
  have h3 : (b32.mag (b32.abs x) : ℝ) + b32.ulp (b32.abs x) ≤ b32.mag (b32.abs y) := by exact_mod_cast h1
  have h4 : (b32.mag (b32.abs x) : ℝ) ≤ 2 ^ 25 * b32.ulp (b32.abs x) := by exact_mod_cast h2
  have h5 : (0 : ℝ) < b32.ulp (b32.abs x) := by exact_mod_cast b32.ulp_pos _
  have h6 : (0 : ℝ) ≤ b32.mag (b32.abs x) := Nat.cast_nonneg _
  have hu : (0 : ℝ) < 2 ^ b32.unit := by positivity
  rw [abs_div, abs_R, abs_R, div_div_div_cancel_right₀ hu.ne', div_le_iff₀ (by linarith)]
  norm_num at *
  linarith

theorem quot_ap {x y : Nat} (hx : Fin b32 x) (hy : Fin b32 y) (h : b32.abs x < b32.abs y) :
    Ap (Arith.fdiv b64 (wide x) (wide y)) (R b32 x / R b32 y) (1 / 2 ^ 52) ∧ |R b64 (Arith.fdiv b64 (wide x) (wide y))| ≤ 1 := by
  obtain ⟨a1, a2, -, -⟩ := wideR hx
  obtain ⟨b1, b2, -, -⟩ := wideR hy
  have hr := ratio_lt h
  have y0 : R b32 y ≠ 0 := by
    intro e
    rw [R_signed] at e
    have := b32.mag_strictMono (lt_of_le_of_lt (Nat.zero_le _) h)
    rw [b32.mag_zero] at this
    have h2 : (0 : ℝ) < b32.mag (b32.abs y) / 2 ^ b32.unit := by
      have : (0 : ℝ) < b32.mag (b32.abs y) := by exact_mod_cast this
      positivity
    cases hn : b32.neg y <;> simp only [hn, Bool.false_eq_true, if_false, if_true] at e <;> linarith
  obtain ⟨d1, d2⟩ := div_err top_big a1 b1 (by rw [b2]; exact y0) (by rw [a2, b2]; exact hr.trans (le_Mx (by norm_num)))
  rw [a2, b2, eps64] at d2
  have e5 := eta64
  have d3 : |R b64 (Arith.fdiv b64 (wide x) (wide y)) - R b32 x / R b32 y| ≤ 1 / 2 ^ 52 := by
    refine d2.trans ?_
    norm_num at *
    linarith
  refine ⟨⟨d1, d3⟩, ?_⟩
  have := abs_sub_abs_le_abs_sub (R b64 (Arith.fdiv b64 (wide x) (wide y))) (R b32 x / R b32 y)
  norm_num at *
  linarith

end Verif.Approx
