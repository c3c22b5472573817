import Verif.Approx.Quot

/-! # The parts of `ctanhf` -/

namespace Verif.Approx
open Verif.Float Verif.Approx.Spec
open Verif.Math.Spec (Pat)

theorem k_quarter : Fin b64 quarter ∧ R b64 quarter = 1 / 4 := by
  have := lit_pos (x := quarter) (E := 1021) (m := 2 ^ 52) (k := 54) (by norm_num [quarter]) (by norm_num) (by norm_num) (by norm_num)
  norm_num at this ⊢; exact this

theorem rel_quarter : Rel quarter (1 / 4) 0 := Rel.exact k_quarter.1 k_quarter.2

theorem k_gate53 : Fin b64 0x4340000000000000 ∧ R b64 0x4340000000000000 = 2 ^ 53 := by
  refine ⟨by unfold Fin; decide, ?_⟩
  have h : b64.val 0x4340000000000000 = 2 ^ 53 * 2 ^ b64.unit := by decide +kernel
  unfold R
  rw [h, div_eq_iff (by positivity)]
  push_cast
  norm_num

/-- The angle: the cosine, and the product of the sine and the cosine. -/
theorem cis_ok {y : Nat} (py : Pat b32 y) (hy : Fin b32 y) : ∃ c, cisf y = some c ∧ Rel c.1 (Real.cos (R b32 y)) (85 / 100 / 2 ^ 26) ∧ 1 / 2 ^ 151 ≤ |Real.cos (R b32 y)| ∧
    RZ (b64.mul c.2 c.1) (Real.sin (R b32 y) * Real.cos (R b32 y)) (171 / 100 / 2 ^ 26) := by
  by_cases h0 : R b32 y = 0
  · have e : cisf y = some (0x3FEFFFFFFFF97C47, 0) := by rcases zero_cases py h0 with rfl | rfl <;> decide +kernel
    refine ⟨_, e, ?_, ?_, Or.inr ⟨by rw [h0, Real.sin_zero, zero_mul], by decide +kernel⟩⟩
    · rw [h0, Real.cos_zero]
      have := lit_pos (x := 0x3FEFFFFFFFF97C47) (E := 1022) (m := 9007199254314055) (k := 53) (by norm_num) (by norm_num) (by norm_num) (by norm_num)
      refine ⟨this.1, ?_⟩
      rw [this.2, abs_le]
      norm_num
    · rw [h0, Real.cos_zero]; norm_num
  · obtain ⟨c, hc, c1, c2, l1, l2⟩ := cisf_rel hy h0
    have s0 : Real.sin (R b32 y) * Real.cos (R b32 y) ≠ 0 :=
      mul_ne_zero (abs_pos.1 (lt_of_lt_of_le (by positivity) l2)) (abs_pos.1 (lt_of_lt_of_le (by positivity) l1))
    refine ⟨c, hc, c1, l1, Or.inl ⟨s0, c2.mul_tiny c1 (by norm_num) (le_Mx ?_) ?_ (by norm_num)⟩⟩
    · have : |Real.sin (R b32 y) * Real.cos (R b32 y)| ≤ 1 := by
        rw [abs_mul]; exact mul_le_one₀ (Real.abs_sin_le_one _) (abs_nonneg _) (Real.abs_cos_le_one _)
      norm_num at *; linarith
    · rw [abs_mul]
      calc (1 : ℝ) / 2 ^ 320 ≤ 1 / 2 ^ 302 := one_div_le_one_div_of_le (by positivity) (pow_le_pow_right₀ (by norm_num) (by norm_num))
        _ = 1 / 2 ^ 151 * (1 / 2 ^ 151) := by rw [div_mul_div_comm, one_mul, ← pow_add]
        _ ≤ _ := mul_le_mul l2 l1 (by positivity) (abs_nonneg _)

theorem twice_abs {x : Nat} (hx : Fin b32 x) : (Fin b32 (b32.mul 0x40000000 (b32.abs x)) ∧ R b32 (b32.mul 0x40000000 (b32.abs x)) = 2 * |R b32 x|) ∨
    (b32.mul 0x40000000 (b32.abs x) = b32.inf ∧ 2 ^ 100 ≤ |R b32 x|) := by
  obtain ⟨f1, f2⟩ := fabs_R hx
  obtain ⟨r, r1, r2, r3, r4⟩ := Fmt.mul_pow ok32 (c := 0x40000000) (j := 1) (by decide) (by decide +kernel) f1
  have hn : b32.neg (b32.abs x) = false := by
    have : b32.abs x < b32.signBit := Nat.lt_trans hx (by decide)
    unfold Fmt.neg
    rw [Nat.div_eq_of_lt this]
    rfl
  have hi : (b32.mag b32.inf : ℝ) = 2 ^ 128 * 2 ^ b32.unit := by
    have : b32.mag b32.inf = 2 ^ 128 * 2 ^ b32.unit := by decide +kernel
    rw [this]; push_cast; norm_num
  have hu : (0 : ℝ) < 2 ^ b32.unit := by positivity
  rw [hn, show b32.pack false r = r by simp [Fmt.pack]] at r1
  rw [abs_abs'] at r3 r4
  rw [r1]
  rcases Nat.lt_or_ge (2 ^ 1 * b32.mag (b32.abs x)) (b32.mag b32.inf) with h | h
  · left
    have h3 := r3 h
    have hr : r < b32.inf := (Fmt.mag_lt_iff (F := b32)).1 (by rw [h3]; exact h)
    have := R_pack (F := b32) (s := false) r2
    rw [show b32.pack false r = r by simp [Fmt.pack]] at this
    have fr : b32.abs r = r := Nat.mod_eq_of_lt (Nat.lt_trans hr (by decide))
    refine ⟨by unfold Fin; rw [fr]; exact hr, ?_⟩
    rw [this, h3, abs_R]
    push_cast
    simp
    ring
  · right
    refine ⟨r4 h, ?_⟩
    have h' : (b32.mag b32.inf : ℝ) ≤ ((2 ^ 1 * b32.mag (b32.abs x) : Nat) : ℝ) := by exact_mod_cast h
    rw [hi] at h'
    rw [abs_R, le_div_iff₀ hu]
    push_cast at h'
    generalize (2 : ℝ) ^ b32.unit = w at *
    norm_num at *
    linarith

/-- `Rel.div` for quotients down to 2^-320. -/
theorem Rel.div_tiny {x y : Nat} {v w ε δ θ η : ℝ} (hx : Rel x v ε) (hy : Rel y w δ) (hε : 0 ≤ ε ∧ 0 ≤ δ ∧ δ < 1) (hw : w ≠ 0)
    (hθ : (ε + δ) / (1 - δ) ≤ θ) (hB : (1 + θ) * |v / w| ≤ Mx) (hlo : 1 / 2 ^ 320 ≤ |v / w|) (hη : θ + (1 + θ) / 2 ^ 53 + 1 / 2 ^ 80 ≤ η) :
    Rel (Arith.fdiv b64 x y) (v / w) η := by
  have hw0 : 0 < |w| := abs_pos.2 hw
  have hy1 := hy.le_abs
  have h1d : 0 < 1 - δ := by linarith [hε.2.2]
  have hy2 : 0 < |R b64 y| := lt_of_lt_of_le (mul_pos h1d hw0) hy1
  have hy0 : R b64 y ≠ 0 := abs_pos.1 hy2
  have k3 : |R b64 x / R b64 y - v / w| ≤ θ * |v / w| := by
    have e : R b64 x / R b64 y - v / w = ((R b64 x - v) * w - v * (R b64 y - w)) / (R b64 y * w) := by field_simp; ring
    rw [e, abs_div, abs_div, abs_mul, div_le_iff₀ (mul_pos hy2 hw0)]
    have a : |(R b64 x - v) * w - v * (R b64 y - w)| ≤ (ε + δ) * (|v| * |w|) := by
      refine (abs_sub _ _).trans ?_
      rw [abs_mul, abs_mul]
      have b1 := mul_le_mul_of_nonneg_right hx.err hw0.le
      have b2 := mul_le_mul_of_nonneg_left hy.err (abs_nonneg v)
      calc _ ≤ ε * |v| * |w| + |v| * (δ * |w|) := add_le_add b1 b2
        _ = _ := by ring
    refine a.trans ?_
    have c : (ε + δ) ≤ θ * (1 - δ) := by rwa [div_le_iff₀ h1d] at hθ
    have hθ0 : 0 ≤ θ := le_trans (div_nonneg (by linarith [hε.1, hε.2.1]) h1d.le) hθ
    calc (ε + δ) * (|v| * |w|) ≤ θ * (1 - δ) * (|v| * |w|) := mul_le_mul_of_nonneg_right c (by positivity)
      _ = θ * |v| * ((1 - δ) * |w|) := by ring
      _ ≤ θ * |v| * |R b64 y| := mul_le_mul_of_nonneg_left hy1 (mul_nonneg hθ0 (abs_nonneg _))
      _ = θ * (|v| / |w|) * (|R b64 y| * |w|) := by field_simp
  have k4 : |R b64 x / R b64 y| ≤ (1 + θ) * |v / w| := by
    have := abs_sub_abs_le_abs_sub (R b64 x / R b64 y) (v / w)
    linarith
  obtain ⟨k1, k2⟩ := div_err top_big hx.fin hy.fin hy0 (k4.trans hB)
  rw [eps64] at k2
  refine ⟨k1, ?_⟩
  have k5 := eta_le400
  have k6 : (1 : ℝ) / 2 ^ 400 ≤ 1 / 2 ^ 80 * |v / w| := by
    refine le_trans (le_of_eq ?_) (mul_le_mul_of_nonneg_left hlo (by norm_num))
    rw [div_mul_div_comm, one_mul, ← pow_add]
  calc _ ≤ |R b64 (Arith.fdiv b64 x y) - R b64 x / R b64 y| + |R b64 x / R b64 y - v / w| := abs_sub_le _ _ _
    _ ≤ (1 / 2 ^ 53 * ((1 + θ) * |v / w|) + 1 / 2 ^ 80 * |v / w|) + θ * |v / w| :=
        add_le_add (k2.trans (add_le_add (mul_le_mul_of_nonneg_left k4 (by norm_num)) (k5.trans k6))) k3
    _ = (θ + (1 + θ) / 2 ^ 53 + 1 / 2 ^ 80) * |v / w| := by ring
    _ ≤ _ := mul_le_mul_of_nonneg_right hη (abs_nonneg _)

theorem sinh_exp (X : ℝ) : Real.sinh X * Real.cosh X = (Real.exp (2 * X) - 1) * (1 / 4 + 1 / 4 / Real.exp (2 * X)) ∧
    Real.sinh X ^ 2 = 1 / 4 * (Real.exp (2 * X) - 1) * (Real.exp (2 * X) - 1) / Real.exp (2 * X) := by
  have h := Real.exp_pos X
  rw [Real.sinh_eq, Real.cosh_eq, Real.exp_neg, two_mul, Real.exp_add]
  constructor <;> field_simp <;> ring

/-- Where the code divides. -/
structure TSmall (X : ℝ) (x t : Nat) : Prop where
  gate : b64.le 0x4340000000000000 t = false
  num : RZ (tanhNum t x) (Real.sinh X * Real.cosh X) (3 / 10 ^ 12)
  sq : Rel (tanhSq t) (Real.sinh X ^ 2) (5 / 10 ^ 12)
  le : Real.exp (2 * |X|) ≤ 2 ^ 55

/-- Where the hyperbolic tangent is one. -/
structure TLarge (X : ℝ) (t : Nat) : Prop where
  gate : b64.le 0x4340000000000000 t = true
  ge : 2 ^ 52 ≤ Real.exp (2 * |X|)
  den : Rel (b64.mul quarter t) (1 / 4 * (Real.exp (2 * |X|) - 1)) (2 / 10 ^ 12) ∧ 1 / 4 * (Real.exp (2 * |X|) - 1) ≤ Mx ∨ b64.mul quarter t = b64.inf ∧ (2 : ℝ) ^ 302 ≤ Real.exp (2 * |X|)

set_option exponentiation.threshold 400 in
theorem tanh_ok {x : Nat} (px : Pat b32 x) (hx : Fin b32 x) : ∃ t, expm1Wide (b32.mul 0x40000000 (b32.abs x)) = some t ∧ (TSmall (R b32 x) x t ∨ TLarge (R b32 x) t) := by
  by_cases h0 : R b32 x = 0
  · have e : expm1Wide (b32.mul 0x40000000 (b32.abs x)) = some 0 := by rcases zero_cases px h0 with rfl | rfl <;> decide +kernel
    refine ⟨0, e, Or.inl ⟨by decide +kernel, Or.inr ⟨by rw [h0, Real.sinh_zero, zero_mul], ?_⟩, ?_, ?_⟩⟩
    · unfold tanhNum
      cases b32.neg x <;> decide +kernel
    · rw [h0, Real.sinh_zero, show tanhSq 0 = 0 by decide +kernel]
      refine ⟨by unfold Fin; decide, ?_⟩
      have : R b64 0 = 0 := by unfold R; rw [show b64.val 0 = 0 by decide +kernel]; simp
      rw [this]; simp
    · rw [h0]; simp
      exact one_le_pow₀ (by norm_num)
  have hX : 0 < |R b32 x| := abs_pos.2 h0
  have hinf : ∀ t, t = b64.inf → (709 : ℝ) ≤ 2 * |R b32 x| → TLarge (R b32 x) t := by
    rintro t rfl h
    have := exp_huge h
    exact ⟨by decide +kernel, le_trans (by norm_num) this, Or.inr ⟨by decide +kernel, this⟩⟩
  rcases twice_abs hx with ⟨f, v⟩ | ⟨i, v⟩
  swap
  · rw [i]
    exact ⟨_, by decide +kernel, Or.inr (hinf b64.inf rfl (by norm_num at *; linarith))⟩
  rcases le_or_gt (2 * |R b32 x|) 709.7827129 with h | h
  swap
  · exact ⟨_, expm1Wide_inf f (by rw [v]; exact h), Or.inr (hinf _ rfl (by norm_num at *; linarith))⟩
  have h' := gap709 (by rw [v]; exact h)
  obtain ⟨t, e, y2⟩ := expm1Wide_rel f (by rw [v]; positivity) h'
  rw [v] at h' y2
  refine ⟨t, e, ?_⟩
  have hM := exp_le_Mx h'
  have hsm := fin_ne_zero h0
  rw [show b32.unit = 149 by rfl] at hsm
  have hEX := Real.add_one_le_exp (2 * |R b32 x|)
  have hE : 0 < Real.exp (2 * |R b32 x|) := Real.exp_pos _
  have hv : 0 < Real.exp (2 * |R b32 x|) - 1 := by linarith
  have m1 := rel_quarter.mul y2 (η := 1.12 / 10 ^ 12) (by norm_num) (by rw [abs_of_pos (by positivity)]; norm_num at *; linarith)
    (by rw [abs_of_pos (by positivity)]; norm_num at *; linarith) (by norm_num)
  have te := abs_le.1 y2.err
  rw [abs_of_pos hv] at te
  cases g : b64.le 0x4340000000000000 t
  · left
    have g' : R b64 t < 2 ^ 53 := by
      by_contra c
      rw [(le_R k_gate53.1 y2.fin).2 (by rw [k_gate53.2]; exact not_lt.1 c)] at g
      cases g
    have hle : Real.exp (2 * |R b32 x|) ≤ 2 ^ 55 := by norm_num at *; linarith
    obtain ⟨s1, s2⟩ := sinh_exp |R b32 x|
    have hnum : Real.sinh (R b32 x) * Real.cosh (R b32 x) = (if b32.neg x then -1 else 1) * (Real.sinh |R b32 x| * Real.cosh |R b32 x|) := by
      rw [Real.cosh_abs]
      have := R_sign (F := b32) x
      cases e : b32.neg x
      · rw [e] at this; simp at this; simp [← this]
      · rw [e] at this; simp at this
        conv_lhs => rw [this]
        simp
    have hsq : Real.sinh (R b32 x) ^ 2 = Real.sinh |R b32 x| ^ 2 := by rw [← Real.abs_sinh, sq_abs]
    have a := y2.add (rel_one.mono (δ := 1.1 / 10 ^ 12) (by norm_num)) hv.le (by norm_num) (by
      norm_num at *; linarith) (η := 1.11 / 10 ^ 12) (by norm_num)
    rw [sub_add_cancel] at a
    have hQ : Real.sinh |R b32 x| ^ 2 ≤ 2 ^ 55 ∧ 1 / 2 ^ 300 ≤ Real.sinh |R b32 x| ^ 2 := by
      constructor
      · rw [s2, div_le_iff₀ hE]
        generalize Real.exp (2 * |R b32 x|) = E at *
        nlinarith
      · have := Real.self_le_sinh_iff.2 hX.le
        calc (1 : ℝ) / 2 ^ 300 ≤ (1 / 2 ^ 149) ^ 2 := by norm_num
          _ ≤ _ := pow_le_pow_left₀ (by positivity) (hsm.trans this) 2
    have hq4 : 1 / 2 ^ 300 ≤ 1 / 4 * (Real.exp (2 * |R b32 x|) - 1) * (Real.exp (2 * |R b32 x|) - 1) := by
      have b : 1 / 2 ^ 149 ≤ Real.exp (2 * |R b32 x|) - 1 := by linarith
      calc (1 : ℝ) / 2 ^ 300 = 1 / 4 * (1 / 2 ^ 149) * (1 / 2 ^ 149) := by norm_num
        _ ≤ _ := mul_le_mul (mul_le_mul_of_nonneg_left b (by norm_num)) b (by positivity) (by positivity)
    rw [s2] at hQ
    refine ⟨g, ?_, ?_, hle⟩
    · refine Or.inl ?_
      rw [hnum, s1]
      unfold tanhNum
      generalize Real.exp (2 * |R b32 x|) = E at *
      obtain ⟨d1, d2⟩ := rel_quarter.div_abs a (θ := 1.12 / 10 ^ 12) (by norm_num) hE.ne' (by norm_num) (by
        refine le_Mx ?_
        rw [abs_of_pos (by positivity)]
        have : 1 / 4 / E ≤ 1 := by rw [div_le_one hE]; linarith
        norm_num at *; linarith)
      have hw0 : 0 < 1 / 4 / E := by positivity
      have hw1 : 1 / 4 / E ≤ 1 / 4 := by rw [div_le_iff₀ hE]; linarith
      rw [abs_of_pos hw0] at d2
      generalize 1 / 4 / E = q at *
      have Q : Rel (b64.add quarter (Arith.fdiv b64 quarter (b64.add t one))) (1 / 4 + q) (1.2 / 10 ^ 12) := by
        refine Rel.add_abs rel_quarter.fin d1 (rel_quarter.err.trans (by simp)) d2 (e := 0) le_rfl ?_ ?_
        · refine le_Mx ?_
          rw [abs_of_pos (by positivity)]
          norm_num at *; linarith
        · rw [abs_of_pos (by positivity)]
          norm_num at *; linarith
      have sy := y2.sign (b32.neg x) hv (by norm_num)
      have hσ : |(if b32.neg x then (-1 : ℝ) else 1)| = 1 := by cases b32.neg x <;> simp
      generalize (if b32.neg x then (-1 : ℝ) else 1) = σ at *
      have e : |σ * (E - 1) * (1 / 4 + q)| = (E - 1) * (1 / 4 + q) := by
        rw [abs_mul, abs_mul, hσ, abs_of_pos hv, abs_of_pos (by positivity), one_mul]
      have b1 : (E - 1) * (1 / 4 + q) ≤ (E - 1) * 1 := mul_le_mul_of_nonneg_left (by linarith) hv.le
      have b2 : (E - 1) * (1 / 4) ≤ (E - 1) * (1 / 4 + q) := mul_le_mul_of_nonneg_left (by linarith) hv.le
      rw [← mul_assoc]
      refine ⟨fun c => ?_, sy.mul Q (η := 3 / 10 ^ 12) (by norm_num) (by rw [e]; norm_num at *; linarith) (by rw [e]; norm_num at *; linarith) (by norm_num)⟩
      rw [c, abs_zero] at e
      linarith
    · rw [hsq, s2]
      unfold tanhSq
      generalize Real.exp (2 * |R b32 x|) = E at *
      have hp : 0 < 1 / 4 * (E - 1) * (E - 1) := by positivity
      have m2 := m1.mul_tiny y2 (η := 2.3 / 10 ^ 12) (by norm_num) (by
        refine le_Mx ?_
        rw [abs_of_pos hp]
        have : 1 / 4 * (E - 1) * (E - 1) ≤ 2 ^ 55 * 2 ^ 55 := mul_le_mul (by linarith) (by linarith) hv.le (by norm_num)
        norm_num at this ⊢; linarith) (by rw [abs_of_pos hp]; exact le_trans (by norm_num) hq4) (by norm_num)
      have hp2 : 0 < 1 / 4 * (E - 1) * (E - 1) / E := div_pos hp hE
      exact m2.div_tiny a (θ := 3.5 / 10 ^ 12) (by norm_num) hE.ne' (by norm_num) (by
        refine le_Mx ?_
        rw [abs_of_pos hp2]
        have := hQ.1
        norm_num at this ⊢; linarith) (by rw [abs_of_pos hp2]; exact le_trans (by norm_num) hQ.2) (by norm_num)
  · right
    have g' := (le_R k_gate53.1 y2.fin).1 g
    rw [k_gate53.2] at g'
    refine ⟨g, by norm_num at *; linarith, Or.inl ⟨m1.mono (by norm_num), by have := hM; norm_num at this; linarith⟩⟩

end Verif.Approx
