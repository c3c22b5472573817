import Verif.Approx.Cis

/-! # The products in `csinhf` and `ccoshf` -/

namespace Verif.Approx
open Verif.Float Verif.Approx.Spec
open Verif.Math.Spec (Pat)

/-- The hyperbolic cosine and sine, where `expm1f_` does not overflow. -/
theorem hyp_rel {x : Nat} (hx : Fin b32 x) (h0 : R b32 x ≠ 0) (h : |R b32 x| ≤ 709.7827129) :
    ∃ t, expm1Wide (b32.abs x) = some t ∧ Rel (coshOf t) (Real.cosh (R b32 x)) (3 / 10 ^ 12) ∧ Rel (sinhOf t x) (Real.sinh (R b32 x)) (3 / 10 ^ 12) ∧
      1.00002 * |Real.cosh (R b32 x)| ≤ Mx ∧ 1 / 2 ^ 149 ≤ |Real.sinh (R b32 x)| ∧ |Real.sinh (R b32 x)| ≤ |Real.cosh (R b32 x)| := by
  obtain ⟨f1, f2⟩ := fabs_R hx
  have h1 : 0 < |R b32 x| := abs_pos.2 h0
  have hsm := fin_ne_zero h0
  rw [show b32.unit = 149 by rfl] at hsm
  have hsinh : Real.sinh (R b32 x) = (if b32.neg x then -1 else 1) * Real.sinh |R b32 x| := by
    have := R_sign (F := b32) x
    cases e : b32.neg x
    · rw [e] at this; simp at this; simp [← this]
    · rw [e] at this; simp at this
      conv_lhs => rw [this]
      simp
  have h' := gap709 (x := b32.abs x) (by rw [f2]; exact h)
  obtain ⟨y, y1, y2⟩ := expm1Wide_rel f1 (by rw [f2]; exact h1.ne') h'
  rw [f2] at h' y2
  rw [hsinh, ← Real.cosh_abs]
  refine ⟨y, y1, ?_⟩
  unfold coshOf sinhOf
  generalize |R b32 x| = X at *
  have hE := Real.exp_pos X
  have hEX := Real.add_one_le_exp X
  have hM := exp_le_Mx h'
  have hv : 0 < Real.exp X - 1 := by linarith
  have hs : Real.sinh X = (Real.exp X - 1) * (1 / 2 + 1 / 2 / Real.exp X) := by
    rw [Real.sinh_eq, Real.exp_neg]; field_simp; ring
  have hc : Real.cosh X = 1 / 2 * Real.exp X + 1 / 2 / Real.exp X := by
    rw [Real.cosh_eq, Real.exp_neg]; field_simp
  rw [hs, hc]
  generalize Real.exp X = E at *
  have a := y2.add (rel_one.mono (δ := 1.1 / 10 ^ 12) (by norm_num)) hv.le (by norm_num) (by
    norm_num at *; linarith) (η := 1.11 / 10 ^ 12) (by norm_num)
  rw [sub_add_cancel] at a
  obtain ⟨d1, d2⟩ := rel_half.div_abs a (θ := 1.12 / 10 ^ 12) (by norm_num) hE.ne' (by norm_num) (by
    refine le_Mx ?_
    rw [abs_of_pos (by positivity)]
    have : 1 / 2 / E ≤ 1 := by rw [div_le_one hE]; linarith
    norm_num at *; linarith)
  have m := rel_half.mul a (η := 1.12 / 10 ^ 12) (by norm_num) (by rw [abs_of_pos (by positivity)]; norm_num at *; linarith)
    (by rw [abs_of_pos (by positivity)]; norm_num at *; linarith) (by norm_num)
  have hw0 : 0 < 1 / 2 / E := by positivity
  have hw1 : 1 / 2 / E ≤ 1 / 2 := by rw [div_le_iff₀ hE]; linarith
  rw [abs_of_pos hw0] at d2
  have me := m.err
  rw [abs_of_pos (show 0 < 1 / 2 * E by positivity)] at me
  generalize 1 / 2 / E = q at *
  have C : Rel (b64.add (b64.mul half (b64.add y one)) (Arith.fdiv b64 half (b64.add y one))) (1 / 2 * E + q) (3 / 10 ^ 12) := by
    refine Rel.add_abs m.fin d1 me d2 le_rfl ?_ ?_
    · rw [abs_of_pos (by positivity)]
      norm_num at *; linarith
    · rw [abs_of_pos (by positivity)]
      norm_num at *; linarith
  have Q : Rel (b64.add half (Arith.fdiv b64 half (b64.add y one))) (1 / 2 + q) (1.2 / 10 ^ 12) := by
    refine Rel.add_abs rel_half.fin d1 (rel_half.err.trans (by simp)) d2 (e := 0) le_rfl ?_ ?_
    · refine le_Mx ?_
      rw [abs_of_pos (by positivity)]
      norm_num at *; linarith
    · rw [abs_of_pos (by positivity)]
      norm_num at *; linarith
  have sy := y2.sign (b32.neg x) hv (by norm_num)
  have hσ : |(if b32.neg x then (-1 : ℝ) else 1)| = 1 := by cases b32.neg x <;> simp
  have hsc : (E - 1) * (1 / 2 + q) ≤ 1 / 2 * E + q := by
    have := Real.sinh_lt_cosh X
    rw [hs, hc] at this
    exact this.le
  generalize (if b32.neg x then (-1 : ℝ) else 1) = σ at *
  have e : |σ * (E - 1) * (1 / 2 + q)| = (E - 1) * (1 / 2 + q) := by
    rw [abs_mul, abs_mul, hσ, abs_of_pos hv, abs_of_pos (by positivity), one_mul]
  have b1 : (E - 1) * (1 / 2 + q) ≤ (E - 1) * 1 := mul_le_mul_of_nonneg_left (by linarith) hv.le
  have b2 : (E - 1) * (1 / 2) ≤ (E - 1) * (1 / 2 + q) := mul_le_mul_of_nonneg_left (by linarith) hv.le
  have k := sy.mul Q (η := 3 / 10 ^ 12) (by norm_num) (by rw [e]; norm_num at *; linarith) (by rw [e]; norm_num at *; linarith) (by norm_num)
  rw [← mul_assoc, e, abs_of_pos (show 0 < 1 / 2 * E + q by positivity)]
  refine ⟨C, k, by norm_num at *; linarith, ?_, hsc⟩
  have hXs : X ≤ (E - 1) * (1 / 2 + q) := by
    have := Real.self_le_sinh_iff.2 h1.le
    rwa [hs] at this
  exact hsm.trans hXs

/-- A product away from zero and infinity. -/
theorem prod_acc {p c : Nat} {v w : ℝ} (hp : Rel p v (3 / 10 ^ 12)) (hc : Rel c w (85 / 100 / 2 ^ 26)) (hM : 1.00002 * |v| ≤ Mx) (hv : 1 / 2 ^ 149 ≤ |v|)
    (hw : 1 / 2 ^ 151 ≤ |w|) (hw1 : |w| ≤ 1) : Accurate b32 (1 / 2 ^ 26) (v * w) (narrow (b64.mul p c)) := by
  have hvw : |v * w| ≤ |v| := by rw [abs_mul]; exact mul_le_of_le_one_right (abs_nonneg _) hw1
  have k := hp.mul_tiny hc (η := 1 / 2 ^ 26) (by norm_num) (by
    refine le_trans ?_ hM
    have h1 := abs_nonneg v
    have h2 := abs_nonneg (v * w)
    generalize |v * w| = z at *
    norm_num; linarith) (by
    rw [abs_mul]
    refine le_trans ?_ (mul_le_mul hv hw (by positivity) (abs_nonneg _))
    rw [div_mul_div_comm, one_mul, ← pow_add]
    exact one_div_le_one_div_of_le (by positivity) (pow_le_pow_right₀ (by norm_num) (by norm_num))) (by norm_num)
  exact k.accurate

theorem neg_of_rel {c : Nat} {w ε : ℝ} (hc : Rel c w ε) (hε : ε < 1) (hw : w ≠ 0) : b64.neg c = decide (w < 0) ∧ b64.abs c ≠ 0 := by
  have hw0 : 0 < |w| := abs_pos.2 hw
  have e := hc.err
  have hR0 : R b64 c ≠ 0 := by
    intro h0
    rw [h0, zero_sub, abs_neg] at e
    nlinarith
  refine ⟨?_, fun h => hR0 (by rw [R_signed, h, b64.mag_zero]; simp)⟩
  have hs := R_sign (F := b64) c
  have := abs_pos.2 hR0
  rcases lt_or_gt_of_ne hw with hn | hn
  · rw [abs_of_neg hn] at e
    have e := abs_le.1 e
    rw [decide_eq_true hn]
    cases hc : b64.neg c
    · rw [hc] at hs; simp at hs
      nlinarith [e.1, e.2]
    · rfl
  · rw [abs_of_pos hn] at e
    have e := abs_le.1 e
    rw [decide_eq_false (not_lt.2 hn.le)]
    cases hc : b64.neg c
    · rfl
    · rw [hc] at hs; simp at hs
      nlinarith [e.1, e.2]

theorem mul_inf_signed {c : Nat} {s : Bool} (hc : Fin b64 c) (h0 : b64.abs c ≠ 0) : b64.mul (b64.pack s b64.inf) c = b64.pack (s != b64.neg c) b64.inf := by
  unfold Fmt.mul
  rw [Fmt.not_nan_of_fin hc, Fmt.isFin_iff.2 hc]
  have n1 : b64.isNaN (b64.pack s b64.inf) = false := by cases s <;> decide
  have n2 : b64.isFin (b64.pack s b64.inf) = false := by cases s <;> decide
  have n3 : b64.abs (b64.pack s b64.inf) ≠ 0 := by cases s <;> decide
  have n4 : b64.neg (b64.pack s b64.inf) = s := by cases s <;> decide
  rw [n1, n2, n4]
  simp [n3, h0]

theorem narrow_inf (s : Bool) : narrow (b64.pack s b64.inf) = b32.pack s b32.inf := by cases s <;> decide +kernel

theorem acc_inf {v ε : ℝ} (hε : 0 ≤ ε) (hv : 2 ^ 128 ≤ |v|) : Accurate b32 ε v (b32.pack (decide (v < 0)) b32.inf) := by
  have hr := rounded_inf (z := |v|) (le_trans (by norm_num) hv)
  have h := rounded_sign hr (lt_of_lt_of_le (by norm_num) hv) (decide (v < 0))
  rw [show b32.abs b32.inf = b32.inf by decide] at h
  refine ⟨v, by rw [sub_self, abs_zero]; exact mul_nonneg hε (abs_nonneg _), ?_⟩
  convert h using 1
  by_cases hv : v < 0
  · simp [hv, abs_of_neg hv]
  · simp [hv, abs_of_nonneg (not_lt.1 hv)]

set_option exponentiation.threshold 400 in
/-- A product with an infinity. -/
theorem prod_inf {c : Nat} {s : Bool} {v w : ℝ} (hc : Rel c w (85 / 100 / 2 ^ 26)) (hs : s = decide (v < 0)) (hv : 2 ^ 300 ≤ |v|) (hw : 1 / 2 ^ 151 ≤ |w|) :
    Accurate b32 (1 / 2 ^ 26) (v * w) (narrow (b64.mul (b64.pack s b64.inf) c)) := by
  have hw0 : w ≠ 0 := abs_pos.1 (lt_of_lt_of_le (by positivity) hw)
  have hv0 : v ≠ 0 := abs_pos.1 (lt_of_lt_of_le (by positivity) hv)
  obtain ⟨n1, n2⟩ := neg_of_rel hc (by norm_num) hw0
  rw [mul_inf_signed hc.fin n2, narrow_inf, n1, hs]
  have : (decide (v < 0) != decide (w < 0)) = decide (v * w < 0) := by
    rcases lt_or_gt_of_ne hv0 with a | a <;> rcases lt_or_gt_of_ne hw0 with b | b
    · rw [decide_eq_true a, decide_eq_true b, decide_eq_false (not_lt.2 (mul_pos_of_neg_of_neg a b).le)]; rfl
    · rw [decide_eq_true a, decide_eq_false (not_lt.2 (le_of_lt b)), decide_eq_true (mul_neg_of_neg_of_pos a b)]; rfl
    · rw [decide_eq_false (not_lt.2 (le_of_lt a)), decide_eq_true b, decide_eq_true (mul_neg_of_pos_of_neg a b)]; rfl
    · rw [decide_eq_false (not_lt.2 (le_of_lt a)), decide_eq_false (not_lt.2 (le_of_lt b)), decide_eq_false (not_lt.2 (mul_pos a b).le)]; rfl
  rw [this]
  refine acc_inf (by positivity) ?_
  rw [abs_mul]
  refine le_trans ?_ (mul_le_mul hv hw (by positivity) (abs_nonneg _))
  norm_num

/-- A product with a zero. -/
theorem prod_zero {c : Nat} {s : Bool} (hc : Fin b64 c) : Accurate b32 (1 / 2 ^ 26) 0 (narrow (b64.mul (b64.pack s 0) c)) := by
  have z : b64.mul (b64.pack s 0) c = b64.pack (s != b64.neg c) 0 := by
    rw [Fmt.mul_fin (by cases s <;> decide) hc, show b64.abs (b64.pack s 0) = 0 by cases s <;> decide, b64.mag_zero, Nat.zero_mul, Verif.Float.rnd_zero _ (by positivity),
      show b64.neg (b64.pack s 0) = s by cases s <;> decide]
  rw [z]
  generalize (s != b64.neg c) = u
  have : narrow (b64.pack u 0) = b32.pack u 0 := by cases u <;> decide +kernel
  rw [this]
  refine ⟨0, by simp, rounded_zero' (by unfold Pat; cases u <;> decide) (by cases u <;> decide) (by decide)⟩

/-- What the products in `csinhf_` and `ccoshf_` need. -/
structure HypOk (X : ℝ) (x t : Nat) : Prop where
  sinh : ∀ {c : Nat} {w : ℝ}, Rel c w (85 / 100 / 2 ^ 26) → 1 / 2 ^ 151 ≤ |w| → |w| ≤ 1 → Accurate b32 (1 / 2 ^ 26) (Real.sinh X * w) (narrow (b64.mul (sinhOf t x) c))
  cosh : ∀ {c : Nat} {w : ℝ}, Rel c w (85 / 100 / 2 ^ 26) → 1 / 2 ^ 151 ≤ |w| → |w| ≤ 1 → Accurate b32 (1 / 2 ^ 26) (Real.cosh X * w) (narrow (b64.mul (coshOf t) c))
  sinh0 : Accurate b32 (1 / 2 ^ 26) (Real.sinh X) (narrow (sinhOf t x))
  cosh0 : Accurate b32 (1 / 2 ^ 26) (Real.cosh X) (narrow (coshOf t))

set_option exponentiation.threshold 400 in
theorem exp_huge {X : ℝ} (h : 709 ≤ X) : (2 : ℝ) ^ 302 ≤ Real.exp X := by
  have h2 := pow128_le_exp (X := X - 200) (by norm_num at *; linarith)
  have h4 := pow128_le_exp (X := 100) (by norm_num)
  have h3 : Real.exp X = Real.exp (X - 200) * (Real.exp 100 * Real.exp 100) := by rw [← Real.exp_add, ← Real.exp_add]; ring_nf
  have a : (2 : ℝ) ^ 128 ≤ Real.exp (X - 200) := by linarith
  have b : (2 : ℝ) ^ 128 ≤ Real.exp 100 := by linarith
  rw [h3]
  calc (2 : ℝ) ^ 302 ≤ 2 ^ 128 * (2 ^ 128 * 2 ^ 128) := by norm_num
    _ ≤ _ := mul_le_mul a (mul_le_mul b b (by positivity) (by positivity)) (by positivity) (by positivity)

set_option exponentiation.threshold 400 in
theorem hyp_ok {x : Nat} (hp : Pat b32 x) (hx : Fin b32 x) : ∃ t, expm1Wide (b32.abs x) = some t ∧ HypOk (R b32 x) x t := by
  by_cases h0 : R b32 x = 0
  · have e1 : b32.abs x = 0 := by rcases zero_cases hp h0 with rfl | rfl <;> decide
    have e2 : sinhOf 0 x = b64.pack (b32.neg x) 0 := by rcases zero_cases hp h0 with rfl | rfl <;> decide +kernel
    have e3 : coshOf 0 = one := by decide +kernel
    have m : 1.00002 * |(1 : ℝ)| ≤ Mx := le_Mx (by norm_num)
    have r1 := rel_one.mono (δ := 3 / 10 ^ 12) (by norm_num)
    refine ⟨0, by rw [e1]; decide +kernel, fun hc _ _ => ?_, fun hc h1 h2 => ?_, ?_, ?_⟩
    · rw [h0, Real.sinh_zero, zero_mul, e2]
      exact prod_zero hc.fin
    · rw [h0, Real.cosh_zero, e3]
      exact prod_acc r1 hc m (by norm_num) h1 h2
    · rw [h0, Real.sinh_zero, e2]
      have : narrow (b64.pack (b32.neg x) 0) = b32.pack (b32.neg x) 0 := by cases b32.neg x <;> decide +kernel
      rw [this]
      refine ⟨0, by simp, rounded_zero' ?_ ?_ (by decide)⟩
      · unfold Pat; cases b32.neg x <;> decide
      · cases b32.neg x <;> decide
    · rw [h0, Real.cosh_zero, e3]
      exact (r1.mono (by norm_num)).accurate
  rcases le_or_gt |R b32 x| 709.7827129 with h | h
  · obtain ⟨t, e, c, s, m, l, sc⟩ := hyp_rel hx h0 h
    exact ⟨t, e, fun hc h1 h2 => prod_acc s hc (by linarith) l h1 h2, fun hc h1 h2 => prod_acc c hc m (l.trans sc) h1 h2,
      (s.mono (by norm_num)).accurate, (c.mono (by norm_num)).accurate⟩
  · obtain ⟨f1, f2⟩ := fabs_R hx
    have e := expm1Wide_inf f1 (by rw [f2]; exact h)
    have e2 : sinhOf b64.inf x = b64.pack (b32.neg x) b64.inf := by
      unfold sinhOf
      cases b32.neg x <;> decide +kernel
    have e3 : coshOf b64.inf = b64.pack false b64.inf := by decide +kernel
    have hE := exp_huge (X := |R b32 x|) (by norm_num at *; linarith)
    have hE1 : Real.exp (-|R b32 x|) ≤ 1 := Real.exp_le_one_iff.2 (by have := abs_nonneg (R b32 x); linarith)
    have hE2 := Real.exp_pos (-|R b32 x|)
    have hc : (2 : ℝ) ^ 300 ≤ |Real.cosh (R b32 x)| := by
      rw [abs_of_pos (Real.cosh_pos _), ← Real.cosh_abs, Real.cosh_eq]
      norm_num at hE ⊢; linarith
    have hs : (2 : ℝ) ^ 300 ≤ |Real.sinh (R b32 x)| := by
      rw [Real.abs_sinh, Real.sinh_eq]
      norm_num at hE ⊢; linarith
    have dc : false = decide (Real.cosh (R b32 x) < 0) := (decide_eq_false (not_lt.2 (Real.cosh_pos _).le)).symm
    have ds : b32.neg x = decide (Real.sinh (R b32 x) < 0) := by
      have a := R_sign (F := b32) x
      have b := abs_pos.2 h0
      cases hn : b32.neg x
      · rw [hn] at a; simp only [Bool.false_eq_true, if_false, one_mul] at a
        rw [a]
        exact (decide_eq_false (not_lt.2 (Real.sinh_nonneg_iff.2 b.le))).symm
      · rw [hn] at a; simp only [if_true] at a
        exact (decide_eq_true (Real.sinh_neg_iff.2 (by linarith))).symm
    refine ⟨_, e, fun hc' h1 h2 => ?_, fun hc' h1 h2 => ?_, ?_, ?_⟩
    · rw [e2]; exact prod_inf hc' ds hs h1
    · rw [e3]; exact prod_inf hc' dc hc h1
    · rw [e2, narrow_inf, ds]; exact acc_inf (by positivity) (le_trans (by norm_num) hs)
    · rw [e3, narrow_inf, dc]; exact acc_inf (by positivity) (le_trans (by norm_num) hc)

theorem zero_acc {x : Nat} (h : x = 0 ∨ x = 0x80000000) : Accurate b32 (1 / 2 ^ 26) 0 x := by
  refine ⟨0, by simp, rounded_zero' ?_ ?_ (by decide)⟩
  · unfold Pat; rcases h with rfl | rfl <;> decide
  · rcases h with rfl | rfl <;> decide

theorem csinhWide_finite {x y : Nat} (px : Pat b32 x) (hx : Fin b32 x) (py : Pat b32 y) (hy : Fin b32 y) :
    ∃ r, csinhWide x y = some r ∧ Accurate b32 (1 / 2 ^ 26) (Real.sinh (R b32 x) * Real.cos (R b32 y)) r.1 ∧
      Accurate b32 (1 / 2 ^ 26) (Real.cosh (R b32 x) * Real.sin (R b32 y)) r.2 := by
  obtain ⟨t, e, ok⟩ := hyp_ok px hx
  unfold csinhWide
  rw [e, Option.bind_some]
  by_cases h0 : R b32 y = 0
  · have z := zero_cases py h0
    obtain ⟨c, hc⟩ : ∃ c, cisf y = some c := by
      obtain ⟨k, d, K, r, e, -⟩ := remPio2_reduced hy
      unfold cisf
      rw [e]
      exact ⟨_, rfl⟩
    rw [hc, Option.map_some, if_pos ((eq_R hy z32.1).2 (by rw [h0, z32.2])), h0, Real.cos_zero, Real.sin_zero, mul_one, mul_zero]
    exact ⟨_, rfl, ok.sinh0, zero_acc z⟩
  · obtain ⟨c, hc, c1, c2, l1, l2⟩ := cisf_rel hy h0
    rw [hc, Option.map_some, if_neg (fun c => h0 (by rw [(eq_R hy z32.1).1 c, z32.2])), if_neg (fun h => h.1 (sub_self_zero hy))]
    exact ⟨_, rfl, ok.sinh c1 l1 (Real.abs_cos_le_one _), ok.cosh c2 l2 (Real.abs_sin_le_one _)⟩

theorem ccoshWide_finite {x y : Nat} (px : Pat b32 x) (hx : Fin b32 x) (py : Pat b32 y) (hy : Fin b32 y) :
    ∃ r, ccoshWide x y = some r ∧ Accurate b32 (1 / 2 ^ 26) (Real.cosh (R b32 x) * Real.cos (R b32 y)) r.1 ∧
      Accurate b32 (1 / 2 ^ 26) (Real.sinh (R b32 x) * Real.sin (R b32 y)) r.2 := by
  obtain ⟨t, e, ok⟩ := hyp_ok px hx
  unfold ccoshWide
  rw [e, Option.bind_some]
  by_cases h0 : R b32 y = 0
  · have z := zero_cases py h0
    obtain ⟨c, hc⟩ : ∃ c, cisf y = some c := by
      obtain ⟨k, d, K, r, e, -⟩ := remPio2_reduced hy
      unfold cisf
      rw [e]
      exact ⟨_, rfl⟩
    rw [hc, Option.map_some, if_pos ((eq_R hy z32.1).2 (by rw [h0, z32.2])), h0, Real.cos_zero, Real.sin_zero, mul_one, mul_zero]
    refine ⟨_, rfl, ok.cosh0, zero_acc ?_⟩
    show b32.copysign 0 x ^^^ y = 0 ∨ b32.copysign 0 x ^^^ y = 0x80000000
    have : b32.copysign 0 x = 0 ∨ b32.copysign 0 x = 0x80000000 := by
      unfold Fmt.copysign
      cases b32.neg x <;> decide
    rcases this with h | h <;> rcases z with rfl | rfl <;> rw [h] <;> decide
  · obtain ⟨c, hc, c1, c2, l1, l2⟩ := cisf_rel hy h0
    rw [hc, Option.map_some, if_neg (fun c => h0 (by rw [(eq_R hy z32.1).1 c, z32.2])), if_neg (fun h => h.1 (sub_self_zero hy)), if_neg (fun h => h.1 (sub_self_zero hy))]
    exact ⟨_, rfl, ok.cosh c1 l1 (Real.abs_cos_le_one _), ok.sinh c2 l2 (Real.abs_sin_le_one _)⟩

end Verif.Approx
