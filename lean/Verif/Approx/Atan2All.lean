import Verif.Approx.Atan2Main

/-! # `atan2f` at finite arguments -/

namespace Verif.Approx
open Verif.Float Verif.Approx.Spec
open Verif.Math.Spec (Pat)

theorem wide_abs {x : Nat} (hx : Fin b32 x) : b64.abs (wide x) = wide (b32.abs x) := by
  have hf := (fabs_R hx).1
  have aa : b32.abs (b32.abs x) = b32.abs x := abs_abs'
  have hn : b32.neg (b32.abs x) = false := by
    unfold Fmt.neg
    rw [Nat.div_eq_of_lt (show b32.abs x < b32.signBit from Nat.mod_lt _ (Nat.two_pow_pos _))]; rfl
  unfold wide Fmt.conv
  rw [Fmt.not_nan_of_fin hx, Fmt.isFin_iff.2 hx, Fmt.not_nan_of_fin hf, Fmt.isFin_iff.2 hf, aa, hn]
  simp only [Bool.false_eq_true, if_false, if_true]
  rw [Fmt.abs_pack (lt_of_le_of_lt (rnd_le _ _ (Nat.two_pow_pos _)) Fmt.inf_lt)]
  simp [Fmt.pack]

theorem narrow_neg {k : Nat} (hk : Fin b64 k) : b32.neg (narrow k) = b64.neg k := by
  unfold narrow Fmt.conv
  rw [Fmt.not_nan_of_fin hk, Fmt.isFin_iff.2 hk]
  simp only [Bool.false_eq_true, if_false, if_true]
  exact Fmt.neg_pack (lt_of_le_of_lt (rnd_le _ _ (Nat.two_pow_pos _)) Fmt.inf_lt)

theorem abs_arctan (t : ℝ) : |Real.arctan t| = Real.arctan |t| := by
  rcases le_total 0 t with h | h
  · rw [abs_of_nonneg h, abs_of_nonneg (Real.arctan_nonneg.2 h)]
  · rw [abs_of_nonpos h, Real.arctan_neg, abs_of_nonpos (by rw [← Real.arctan_zero]; exact Real.arctan_le_arctan_iff.2 h)]

theorem arctan_third {t : ℝ} (h : |t| ≤ 1) : |t| ≤ 1.5 * |Real.arctan t| := by
  rw [abs_arctan]
  have h0 := abs_nonneg t
  generalize |t| = Q at *
  have h' := arctan_taylor h0 1
  simp only [atT] at h'
  norm_num at h'
  have h2 := (abs_le.1 h').1
  have h3 : Q ^ 3 ≤ Q := by
    rw [show Q ^ 3 = Q * Q ^ 2 by ring]
    exact mul_le_of_le_one_right h0 (pow_le_one₀ h0 h)
  norm_num at h3 ⊢
  linarith

theorem arctan_quarter {t : ℝ} (h : |t| ≤ 1) : |Real.arctan t| ≤ 0.8 := by
  rw [abs_arctan]
  have h1 : Real.arctan |t| ≤ Real.arctan 1 := Real.arctan_le_arctan_iff.2 h
  rw [Real.arctan_one] at h1
  have := Real.pi_lt_d20
  norm_num at this ⊢
  linarith

theorem k_pi4 : Fin b64 pi4 ∧ |R b64 pi4 - Real.pi / 4| ≤ 1 / 2 ^ 53 := by
  have h := lit_pos (x := pi4) (E := 1022) (m := 7074237752028440) (k := 53) (by decide) (by decide) (by decide) (by decide)
  refine ⟨h.1, ?_⟩
  have a := Real.pi_gt_d20
  have b := Real.pi_lt_d20
  rw [h.2, abs_le]
  constructor <;> norm_num at * <;> linarith

theorem k_lo : (Fin b64 pi1lo ∧ |R b64 pi1lo| ≤ 1 / 2 ^ 52) ∧ Fin b64 pi2low ∧ |R b64 pi2low| ≤ 1 / 2 ^ 52 := by
  have h := lit_pos (x := pi1lo) (E := 970) (m := 4967757600021511) (k := 105) (by decide) (by decide) (by decide) (by decide)
  have g := lit_pos (x := pi2low) (E := 969) (m := 4967757600021511) (k := 106) (by decide) (by decide) (by decide) (by decide)
  refine ⟨⟨h.1, ?_⟩, g.1, ?_⟩
  · rw [h.2, abs_of_nonneg (by positivity)]; norm_num
  · rw [g.2, abs_of_nonneg (by positivity)]; norm_num

theorem kernel_quot {q : Nat} {t : ℝ} (hq : Ap q t (1 / 2 ^ 52)) (h1 : |R b64 q| ≤ 1) : Ap (kernelAtan q) (Real.arctan t) (1.2 / 2 ^ 42) := by
  obtain ⟨k1, k2⟩ := kernel_ap hq.fin h1
  refine ⟨k1, (abs_sub_le _ (Real.arctan (R b64 q)) _).trans ((add_le_add k2 ((arctan_lip _ _).trans hq.err)).trans (by norm_num))⟩

/-- The sign of a float as a factor. -/
theorem R_sg {F : Fmt} (x : Nat) : R F x = sg (F.neg x) * |R F x| := R_sign x

theorem mag_lt {x y : Nat} : b32.abs x < b32.abs y ↔ |R b32 x| < |R b32 y| := by
  have hu : (0 : ℝ) < 2 ^ b32.unit := by positivity
  rw [abs_R, abs_R, div_lt_div_iff_of_pos_right hu, Nat.cast_lt]
  constructor
  · exact fun h => b32.mag_strictMono h
  · intro h
    by_contra hc
    exact absurd (b32.mag_mono (not_lt.1 hc)) (by omega)

/-- The angle below π/4, in its absolute and relative error. -/
theorem acute_ap {x y : Nat} (hx : Fin b32 x) (hy : Fin b32 y) (h0 : R b32 y ≠ 0) (h : |R b32 y| ≤ |R b32 x|) :
    Ap (acute (wide y) (wide x)) (Real.arctan (R b32 y / |R b32 x|)) (1.2 / 2 ^ 42) ∧
      (1 / 2 ^ 155 ≤ |R b32 y / abs (R b32 x)| → Rel (acute (wide y) (wide x)) (Real.arctan (R b32 y / |R b32 x|)) (1 / 2 ^ 41)) ∧
      (|R b32 y / abs (R b32 x)| ≤ 1 / 2 ^ 155 → |R b64 (acute (wide y) (wide x))| ≤ 1 / 2 ^ 151 ∧ b64.neg (acute (wide y) (wide x)) = b32.neg y) := by
  obtain ⟨a1, a2, -, a4⟩ := wideR hx
  obtain ⟨b1, b2, -, b4⟩ := wideR hy
  obtain ⟨c1, c2⟩ := fabs_R a1
  obtain ⟨d1, d2⟩ := fabs_R b1
  obtain ⟨e1, e2⟩ := fabs_R hx
  have x0 : 0 < |R b32 x| := lt_of_lt_of_le (abs_pos.2 h0) h
  have ee := eq_R c1 d1
  rw [c2, d2, a2, b2] at ee
  have zz := eq_R d1 (show Fin b64 0 by unfold Fin; decide)
  rw [d2, b2, zero64.2] at zz
  unfold acute
  simp only
  by_cases hc : |R b32 x| = |R b32 y|
  · rw [if_pos (ee.2 hc), if_pos (fun hh => abs_ne_zero.2 h0 (zz.1 hh))]
    unfold Fmt.copysign
    rw [b4, show b64.abs pi4 = pi4 by decide]
    obtain ⟨p1, p2⟩ := pack_R (C := pi4) (b32.neg y) (by decide) k_pi4.1
    have hv : Real.arctan (R b32 y / |R b32 x|) = sg (b32.neg y) * (Real.pi / 4) := by
      have hq : R b32 y / |R b32 x| = sg (b32.neg y) := by
        rw [hc, div_eq_iff (abs_ne_zero.2 h0)]; exact R_sg y
      rw [hq]
      cases b32.neg y
      · simp [sg, Real.arctan_one]
      · simp [sg, Real.arctan_neg, Real.arctan_one]
    have er : |R b64 (b64.pack (b32.neg y) pi4) - sg (b32.neg y) * (Real.pi / 4)| ≤ 1 / 2 ^ 53 := by
      rw [p2, ← mul_sub, abs_mul, sg_abs, one_mul]; exact k_pi4.2
    rw [hv]
    refine ⟨⟨p1, er.trans (by norm_num)⟩, fun _ => ⟨p1, er.trans ?_⟩, fun hh => ?_⟩
    · have := Real.pi_gt_d20
      rw [abs_mul, sg_abs, one_mul, abs_of_pos (by positivity)]
      norm_num at this ⊢
      linarith
    · rw [abs_div, _root_.abs_abs, ← hc, div_self x0.ne'] at hh
      norm_num at hh
  · rw [if_neg (fun hh => hc (ee.1 hh)), wide_abs hx]
    have hlt : b32.abs y < b32.abs (b32.abs x) := by
      rw [mag_lt, e2, _root_.abs_abs]
      exact lt_of_le_of_ne h (Ne.symm hc)
    obtain ⟨q1, q2⟩ := quot_ap hy e1 hlt
    have rl := ratio_lt hlt
    obtain ⟨w1, w2, -, w4⟩ := wideR e1
    rw [e2] at q1 w2 rl
    refine ⟨kernel_quot q1 q2, fun hh => ?_, fun hh => ?_⟩
    · have rq : Rel (Arith.fdiv b64 (wide y) (wide (b32.abs x))) (R b32 y / |R b32 x|) (1 / 2 ^ 52) :=
        Rel.div (θ := 0) (Rel.exact b1 b2) (Rel.exact w1 w2) ⟨le_rfl, le_rfl, by norm_num⟩ x0.ne' (by norm_num) (by rw [add_zero, one_mul]; exact rl.trans (le_Mx (by norm_num)))
          (le_trans (by norm_num) hh) (by norm_num)
      generalize Arith.fdiv b64 (wide y) (wide (b32.abs x)) = q at *
      generalize R b32 y / |R b32 x| = t at *
      have l1 := rq.le_abs
      have k := kernelAtan_rel rq.fin q2 (by norm_num at *; linarith)
      have t3 := arctan_third (rl.trans (by norm_num))
      refine ⟨k.fin, ?_⟩
      have e3 := (arctan_lip (R b64 q) t).trans rq.err
      have e4 := k.err
      have e5 := abs_sub_le (R b64 (kernelAtan q)) (Real.arctan (R b64 q)) (Real.arctan t)
      have e6 := abs_sub_abs_le_abs_sub (Real.arctan (R b64 q)) (Real.arctan t)
      norm_num at *
      linarith
    · have hM := div_err top_big b1 w1 (by rw [w2]; exact x0.ne') (by rw [b2, w2]; exact rl.trans (le_Mx (by norm_num)))
      rw [b2, w2, eps64] at hM
      have e5 := eta64
      have e6 := abs_sub_abs_le_abs_sub (R b64 (Arith.fdiv b64 (wide y) (wide (b32.abs x)))) (R b32 y / |R b32 x|)
      have hq : |R b64 (Arith.fdiv b64 (wide y) (wide (b32.abs x)))| ≤ 1.01 / 2 ^ 155 := by
        have := hM.2
        generalize |R b32 y / abs (R b32 x)| = u at *
        norm_num at *
        linarith
      obtain ⟨-, t2, t3⟩ := kernel_tiny q1.fin hq
      refine ⟨t2, ?_⟩
      rw [t3, fdiv_neg b1 w1 (by rw [w2]; exact x0.ne'), b4, neg_false (by rw [w2]; exact x0), Bool.bne_false]

theorem negative_neg {r : Nat} (hp : Pat b32 r) : Math.Spec.negative b32 r ↔ b32.neg r = true := by
  unfold Pat at hp
  unfold Fmt.neg Math.Spec.negative
  rw [show b32.signBit = 2147483648 from rfl] at hp ⊢
  simp only [decide_eq_true_eq]
  omega

theorem atan2f_finite {x y : Nat} (hx : Fin b32 x) (hy : Fin b32 y) (h0 : R b32 y ≠ 0) :
    ∃ r, atan2f y x = some r ∧ Accurate b32 (1 / 2 ^ 39) (Complex.arg ⟨R b32 x, R b32 y⟩) r := by
  obtain ⟨a1, a2, -, a4⟩ := wideR hx
  obtain ⟨b1, b2, -, b4⟩ := wideR hy
  obtain ⟨c1, c2⟩ := fabs_R a1
  obtain ⟨d1, d2⟩ := fabs_R b1
  have y0 := abs_pos.2 h0
  have ll := lt_R c1 d1
  rw [c2, d2, a2, b2] at ll
  have p1 := Real.pi_gt_d20
  have p2 := Real.pi_lt_d20
  have ys := R_sg (F := b32) y
  unfold atan2f atan2Wide
  simp only
  by_cases hlt : |R b32 x| < |R b32 y|
  · rw [if_pos (ll.2 hlt)]
    unfold Fmt.copysign
    rw [b4, show b64.abs pi2 = pi2 by decide, show b64.abs pi2low = pi2low by decide, arg_steep _ h0 ys]
    obtain ⟨q1, q2⟩ := quot_ap hx hy (mag_lt.2 hlt)
    have hw := arctan_quarter (t := R b32 x / R b32 y) ((ratio_lt (mag_lt.2 hlt)).trans (by norm_num))
    refine from_value k_pi2.1 (by decide) (k_pi2.2.trans (by norm_num)) k_lo.2.1 (by decide) k_lo.2.2 (kernel_quot q1 q2) hw (by norm_num at p1 ⊢; linarith) ?_
    refine (abs_sub _ _).trans ?_
    rw [abs_mul, sg_abs, one_mul, abs_of_pos (by positivity)]
    norm_num at *
    linarith
  · rw [if_neg (fun h => hlt (ll.1 h))]
    have hle := not_lt.1 hlt
    have x0 : 0 < |R b32 x| := lt_of_lt_of_le y0 hle
    have xs := R_sg (F := b32) x
    have hq1 : |R b32 y / abs (R b32 x)| ≤ 1 := by rw [abs_div, _root_.abs_abs, div_le_one x0]; exact hle
    obtain ⟨k1, k2, k3⟩ := acute_ap hx hy h0 hle
    rw [a4]
    cases hn : b32.neg x
    · -- on the right
      rw [if_neg (by simp)]
      rw [hn] at xs
      simp only [sg, Bool.false_eq_true, if_false, one_mul] at xs
      rw [arg_right (by rw [xs]; exact x0)]
      have ex : R b32 y / R b32 x = R b32 y / |R b32 x| := by rw [← xs]
      rw [ex]
      rcases le_total (1 / 2 ^ 155) |R b32 y / abs (R b32 x)| with hb | hb
      · have hr := k2 hb
        have hQ : |R b32 y / abs (R b32 x)| = R b64 (b64.abs (wide y)) / R b64 (b64.abs (wide x)) := by
          rw [c2, d2, a2, b2, abs_div, _root_.abs_abs]
        rcases le_total (1.001 / 2 ^ 10) |R b32 y / abs (R b32 x)| with hc | hc
        · refine plain_big hr ?_ ((arctan_quarter hq1).trans (by norm_num))
          rw [abs_arctan]; exact arctan_big hc
        · refine plain_small d1 c1 ?_ ?_ ?_ ?_ (by rw [← hQ]; exact hb) (by rw [← hQ]; exact hc) hr (by rw [← hQ]; exact abs_arctan _)
          · rw [d2, b2, abs_R]
            have : b32.abs y ≠ 0 := fun e => by rw [abs_R, e, b32.mag_zero] at y0; simp at y0
            exact le_trans (by norm_num) (min_mag (Nat.pos_of_ne_zero this))
          · rw [d2, b2]; exact (R32_le hy).trans (by norm_num)
          · rw [c2, a2]; exact x0
          · rw [c2, a2]; exact (R32_le hx).trans (by norm_num)
      · obtain ⟨t1, t2⟩ := k3 hb
        generalize acute (wide y) (wide x) = k at *
        have nz := narrow_zero k1.fin t1
        have hp : Pat b32 (narrow k) := (conv_rounded (G := b32) k1.fin).pat
        have nf : Fin b32 (narrow k) := by unfold Fin; rw [nz]; decide
        have nn := narrow_neg k1.fin
        rw [t2] at nn
        refine ⟨narrow k, ?_, Real.arctan (R b32 y / |R b32 x|), by rw [sub_self, abs_zero]; positivity, hp, ?_, fun h => ?_, fun h => ?_⟩
        · unfold atanPlain
          simp only
          rw [if_neg]
          rintro ⟨-, hh⟩
          exact hh ((eq_R nf (by unfold Fin; decide)).2 (by rw [R_signed, nz, R_signed, show b32.abs 0 = 0 from rfl, b32.mag_zero]; simp))
        · rw [show Math.Spec.absOf b32 (narrow k) = b32.abs (narrow k) from rfl, nz]
          refine nearest_zero ?_ (by decide)
          have := (arctan_abs (R b32 y / |R b32 x|)).trans hb
          calc |Real.arctan (R b32 y / |R b32 x|)| * 2 ^ b32.unit ≤ 1 / 2 ^ 155 * 2 ^ b32.unit := mul_le_mul_of_nonneg_right this (by positivity)
            _ ≤ 1 / 2 := by rw [show b32.unit = 149 from rfl]; norm_num
        · rw [negative_neg hp, nn]
          intro e
          rw [e] at ys
          simp only [sg, if_true] at ys
          have := Real.arctan_pos.1 h
          rw [div_pos_iff_of_pos_right x0] at this
          linarith
        · rw [negative_neg hp, nn]
          by_contra e
          rw [Bool.not_eq_true] at e
          rw [e] at ys
          simp only [sg, Bool.false_eq_true, if_false, one_mul] at ys
          have := Real.arctan_lt_zero.1 h
          rw [div_neg_iff] at this
          rcases this with h' | h' <;> linarith [h'.1, h'.2]
    · rw [if_pos rfl]
      rw [hn] at xs
      simp only [sg, if_true] at xs
      unfold Fmt.copysign
      rw [b4, show b64.abs pi1 = pi1 by decide, show b64.abs pi1lo = pi1lo by decide, arg_left _ (by linarith) h0 ys]
      refine from_value k_pi1.1 (by decide) k_pi1.2 k_lo.1.1 (by decide) k_lo.1.2 k1 (arctan_quarter hq1) (by norm_num at p1 ⊢; linarith) ?_
      have e : R b32 y / |R b32 x| = sg (b32.neg y) * (|R b32 y| / |R b32 x|) := by rw [← mul_div_assoc, ← ys]
      have e2 : Real.arctan (R b32 y / |R b32 x|) = sg (b32.neg y) * Real.arctan (|R b32 y| / |R b32 x|) := by
        rw [e]
        cases b32.neg y
        · simp [sg]
        · simp [sg, Real.arctan_neg]
      have u0 : 0 ≤ Real.arctan (|R b32 y| / |R b32 x|) := Real.arctan_nonneg.2 (by positivity)
      have u1 := Real.arctan_lt_pi_div_two (|R b32 y| / |R b32 x|)
      rw [e2, ← mul_sub, abs_mul, sg_abs, one_mul, abs_of_nonneg (by linarith)]
      norm_num at p2 ⊢
      linarith

end Verif.Approx
