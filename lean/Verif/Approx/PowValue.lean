import Verif.Approx.PowCases

/-! # The value of `powf` at finite arguments -/

namespace Verif.Approx
open Verif.Float Verif.Approx.Spec
open Verif.Math.Spec (Pat absOf negative size value NaN Infinite)

theorem R32_top {y : Nat} (hy : Fin b32 y) : |R b32 y| ≤ 2 ^ 128 := by
  rw [← (fabs_R hy).2]
  have hy' : b32.abs y < b32.inf := hy
  refine (R32_mono (show b32.abs y ≤ b32.inf - 1 by omega) (by decide)).trans ?_
  rw [(R32_pat (by decide)).2, show b32.mag (b32.inf - 1) = (2 ^ 128 - 2 ^ 104) * 2 ^ b32.unit by decide +kernel, Nat.cast_mul, Nat.cast_pow 2 b32.unit, Nat.cast_ofNat,
    mul_div_cancel_right₀ _ (by positivity)]
  norm_num

theorem log_range {X : ℝ} (h1 : 1 / 2 ^ 149 ≤ X) (h2 : X ≤ 2 ^ 128) : |Real.log X / Real.log 2| ≤ 149 := by
  have l0 : 0 < Real.log 2 := Real.log_pos (by norm_num)
  have h0 : 0 < X := lt_of_lt_of_le (by norm_num) h1
  rw [abs_div, abs_of_pos l0, div_le_iff₀ l0, abs_le]
  constructor
  · have := Real.log_le_log (by norm_num) h1
    rw [one_div, Real.log_inv, Real.log_pow] at this
    push_cast at this
    linarith
  · have := Real.log_le_log h0 h2
    rw [Real.log_pow] at this
    push_cast at this
    linarith

theorem mid_real {p : Nat} (h : p + 1 < b32.inf) : (real b32 p + real b32 (p + 1)) / 2 = ((b32.mag p : ℝ) + b32.mag (p + 1)) / 2 / 2 ^ b32.unit := by
  rw [real_pat h, real_pat (by omega), (R32_pat h).2, (R32_pat (by omega)).2, ← add_div]
  ring

/-- The values at which the first attempt settles the result. -/
def Settled (v : ℝ) : Prop :=
  2 ^ 131 ≤ v ∨ v ≤ 1 / 2 ^ 161 ∨ ((1 + 1 / 2 ^ 38) / 2 ^ 126 ≤ v ∧ v ≤ (1 - 1 / 2 ^ 38) * 2 ^ 127 ∧ FarFromMidpoints b32 (1 / 2 ^ 38) v)

theorem rounded_small {v : ℝ} {r : Nat} (hv : 0 < v) (h : Rounded b32 v r) : r < 2 ^ 31 := by
  have := h.pos hv
  unfold negative at this
  rw [show b32.signBit = 2 ^ 31 from rfl] at this
  omega

theorem rounded_one : Rounded b32 1 0x3F800000 := by
  have := conv_rounded (F := b64) (G := b32) k_one.1
  rw [k_one.2, show b64.conv b32 one = 0x3F800000 by decide +kernel] at this
  norm_num at this
  exact this

theorem core_value {x y : Nat} (h0 : 0 < x) (hx : x < b32.inf) (hy : Fin b32 y) (h : Settled (R b32 x ^ R b32 y)) :
    ∃ r, powCore (wide x) (wide y) = some r ∧ Rounded b32 (R b32 x ^ R b32 y) r := by
  obtain ⟨w1, w2, w3, w4⟩ := wide_pos h0 hx
  obtain ⟨u1, u2, -, -⟩ := wideR hy
  obtain ⟨l, k1, k2, -⟩ := log2Fast_rel w1 w2
  rw [w3] at k2
  have l0 : 0 < Real.log 2 := Real.log_pos (by norm_num)
  have f := (R_pos h0 hx).1
  have hX1 : 1 / 2 ^ 149 ≤ R b32 x := by
    have := fin_ne_zero w4.ne'
    rw [abs_of_pos w4] at this
    exact this
  have hX2 : R b32 x ≤ 2 ^ 128 := (le_abs_self _).trans (R32_top f)
  have hL := log_range hX1 hX2
  have hY := R32_top hy
  have e : R b32 x ^ R b32 y = Real.exp (Real.log (R b32 x) / Real.log 2 * R b32 y * Real.log 2) := by
    have e1 : ∀ a b c : ℝ, c ≠ 0 → a * b = a / c * b * c := fun a b c hc => by field_simp
    rw [Real.rpow_def_of_pos w4, ← e1 _ _ _ l0.ne']
  rw [e] at h ⊢
  clear e
  generalize Real.log (R b32 x) / Real.log 2 = L at *
  generalize R b32 y = Y at *
  have hb : |L * Y| ≤ 2 ^ 200 := by
    rw [abs_mul]
    exact (mul_le_mul hL hY (abs_nonneg _) (by norm_num)).trans (by norm_num)
  rcases h with h | h | ⟨lo, hi, far⟩
  · refine ⟨_, powCore_high k1 k2 u1 u2 hb ?_, rounded_inf (le_trans (by norm_num) h)⟩
    have h' : Real.exp (((131 : Int) : ℝ) * Real.log 2) ≤ Real.exp (L * Y * Real.log 2) := by rw [exp_pow]; exact h
    have := le_of_mul_le_mul_right (Real.exp_le_exp.1 h') l0
    exact_mod_cast this
  · refine ⟨_, powCore_low k1 k2 u1 u2 hb ?_, rounded_zero (Real.exp_pos _).le (h.trans (by norm_num))⟩
    have h' : Real.exp (L * Y * Real.log 2) ≤ Real.exp (((-161 : Int) : ℝ) * Real.log 2) := by
      rw [exp_pow, zpow_neg]; exact h.trans (by norm_num)
    have := le_of_mul_le_mul_right (Real.exp_le_exp.1 h') l0
    exact_mod_cast this
  · exact powCore_mid k1 k2 u1 u2 lo hi fun p hp => by rw [← mid_real hp]; exact far p hp

theorem unsigned_value {x y : Nat} (h0 : 0 < x) (hx : x < b32.inf) (hy : Fin b32 y) (h : Settled (R b32 x ^ R b32 y)) :
    ∃ r, powUnsigned x y = some r ∧ Rounded b32 (R b32 x ^ R b32 y) r ∧ r < 2 ^ 31 := by
  have hp := Real.rpow_pos_of_pos (R_pos h0 hx).2 (R b32 y)
  by_cases h1 : x = 0x3F800000
  · have e : R b32 x = 1 := by
      rw [h1, (R32_pat (by decide)).2, show b32.mag 0x3F800000 = 2 ^ b32.unit by decide +kernel, Nat.cast_pow, Nat.cast_ofNat]
      exact div_self (by positivity)
    refine ⟨0x3F800000, by rw [h1]; exact unsigned_one, ?_, by decide⟩
    rw [e, Real.one_rpow]
    exact rounded_one
  · obtain ⟨r, r1, r2⟩ := core_value h0 hx hy h
    exact ⟨r, by rw [unsigned_core h0 hx h1 (Nat.le_of_lt hy)]; exact r1, r2, rounded_small hp r2⟩

theorem rounded_flip {v : ℝ} {r : Nat} (hv : 0 < v) (h : Rounded b32 v r) (hr : r < 2 ^ 31) : Rounded b32 (-v) (r + 0x80000000) := by
  have := rounded_sign h hv true
  rw [show b32.abs r = r from Nat.mod_eq_of_lt hr] at this
  simp only [if_true, neg_one_mul] at this
  rwa [show b32.pack true r = r + 0x80000000 by rw [Nat.add_comm]; rfl] at this

/-- Integers as real numbers. -/
theorem whole_real {y : Nat} (hf : Math.Spec.Finite b32 y) {n : Int} (h : real b32 y = n) :
    Whole b32 y ∧ (OddWhole b32 y ↔ Odd n) := by
  have hu : (0 : ℝ) < 2 ^ b32.unit := by positivity
  have e : value b32 y = n * 2 ^ b32.unit := by
    unfold real at h
    rw [div_eq_iff hu.ne'] at h
    exact_mod_cast h
  refine ⟨⟨hf, n, e⟩, ?_⟩
  have hi : (2 : Int) ^ b32.unit ≠ 0 := by positivity
  constructor
  · rintro ⟨-, k, hk⟩
    exact ⟨k, mul_right_cancel₀ hi (e.symm.trans hk)⟩
  · rintro ⟨k, rfl⟩
    exact ⟨hf, k, e⟩

theorem real_sign {x : Nat} (hp : Pat b32 x) (hx : Math.Spec.Finite b32 x) (hn : negative b32 x) : real b32 x = -R b32 (absOf b32 x) := by
  rw [← R_eq hp, R_sign, (neg_of hp).2 hn, ← (fabs_R (F := b32) (x := x) hx).2]
  simp [Fmt.abs, absOf]

theorem powf_value {x y : Nat} (hp : Pat b32 x) (hx : Math.Spec.Finite b32 x) (hq : Pat b32 y) (hy : Math.Spec.Finite b32 y) {v : ℝ}
    (hv : Power (real b32 x) (real b32 y) v) (h : Settled |v|) : ∃ r, powf x y = some r ∧ Rounded b32 v r := by
  have hY : R b32 y = real b32 y := R_eq hq
  by_cases h0 : b32.abs y = 0
  · have hz : real b32 y = 0 := by
      rw [← hY, R_signed, h0, b32.mag_zero]; simp
    have e : v = 1 := by
      rcases hv with ⟨-, e⟩ | ⟨-, n, hn, e⟩
      · rw [e, hz, Real.rpow_zero]
      · rw [hz] at hn
        have : n = 0 := by exact_mod_cast hn.symm
        rw [e, this, zpow_zero]
    exact ⟨_, powf_zero h0, e ▸ rounded_one⟩
  · have hxne : real b32 x ≠ 0 := by
      rcases hv with ⟨h, -⟩ | ⟨h, -⟩
      · exact h.ne'
      · exact h.ne
    have ha : 0 < absOf b32 x := by
      refine Nat.pos_of_ne_zero fun e => hxne ?_
      rw [← R_eq hp, R_signed, show b32.abs x = 0 from e, b32.mag_zero]; simp
    have hi : absOf b32 x < b32.inf := hx
    obtain ⟨-, hpos⟩ := R_pos ha hi
    by_cases hn : negative b32 x
    · have hr := real_sign hp hx hn
      rcases hv with ⟨c, -⟩ | ⟨-, n, e1, e2⟩
      · rw [hr] at c; linarith
      · obtain ⟨hw, ho⟩ := whole_real hy e1
        have ev : |v| = R b32 (absOf b32 x) ^ R b32 y := by
          rw [e2, hr, abs_zpow, abs_neg, abs_of_pos hpos, hY, e1, Real.rpow_intCast]
        rw [ev] at h
        obtain ⟨r, r1, r2, r3⟩ := unsigned_value ha hi hy h
        rw [hY, e1, Real.rpow_intCast] at r2
        have hvp : 0 < R b32 (absOf b32 x) ^ n := zpow_pos hpos n
        obtain ⟨k1, k2⟩ := powf_sign ((neg_of hp).2 hn) hy h0 hw (by rw [opp_of hp hn]; exact r1) r3
        by_cases o : Odd n
        · refine ⟨_, k1 (ho.2 o), ?_⟩
          rw [e2, hr, o.neg_zpow]
          exact rounded_flip hvp r2 r3
        · refine ⟨_, k2 (fun c => o (ho.1 c)), ?_⟩
          rw [e2, hr, (Int.not_odd_iff_even.1 o).neg_zpow]
          exact r2
    · have ex : absOf b32 x = x := abs_of hn
      rw [ex] at ha hi hpos
      rcases hv with ⟨-, e⟩ | ⟨c, -⟩
      · have ev : v = R b32 x ^ R b32 y := by rw [e, hY, R_eq hp]
        rw [ev, abs_of_pos (Real.rpow_pos_of_pos hpos _)] at h
        obtain ⟨r, r1, r2, -⟩ := unsigned_value ha hi hy h
        exact ⟨r, by rw [powf_plain h0 (Or.inl ((neg_of' hp).2 hn))]; exact r1, ev ▸ r2⟩
      · rw [← R_eq hp] at c; linarith

/-! ### Results that are floats -/

theorem far_below {P T Q Q' u : ℝ} (h1 : P = T + u) (h2 : P ≤ 2 ^ 25 * u) (h3 : Q ≤ T) (h4 : Q' ≤ P) (h5 : 0 < u) :
    1 / 2 ^ 38 * P < |P - (Q + Q') / 2| := by
  refine lt_of_lt_of_le ?_ (le_abs_self _)
  norm_num at *
  linarith

theorem far_above {P Q Q' u : ℝ} (h2 : P ≤ 2 ^ 24 * u) (h3 : P ≤ Q) (h4 : P + u ≤ Q') (h5 : 0 < u) : 1 / 2 ^ 38 * P < |P - (Q + Q') / 2| := by
  refine lt_of_lt_of_le ?_ (neg_le_abs _)
  norm_num at *
  linarith

theorem far_float {p : Nat} (h : 2 ^ 23 ≤ p) (hp : p < b32.inf) : FarFromMidpoints b32 (1 / 2 ^ 38) (real b32 p) := by
  intro q hq
  have hu : (0 : ℝ) < 2 ^ b32.unit := by positivity
  rw [mid_real hq, real_pat hp, (R32_pat hp).2, show (b32.mag p : ℝ) / 2 ^ b32.unit - ((b32.mag q : ℝ) + b32.mag (q + 1)) / 2 / 2 ^ b32.unit =
    (b32.mag p - ((b32.mag q : ℝ) + b32.mag (q + 1)) / 2) / 2 ^ b32.unit by ring, abs_div, abs_of_pos hu, ← mul_div_assoc]
  refine div_lt_div_of_pos_right ?_ hu
  have hb : ∀ n, b32.mag n ≤ (2 ^ 24 - 1) * b32.ulp n := fun n => by
    obtain ⟨m, m1, m2⟩ := Fmt.mag_form (F := b32) n
    have m3 : m < 2 ^ 24 := m2
    rw [m1]
    exact Nat.mul_le_mul_right _ (by omega)
  rcases Nat.lt_or_ge q p with c | c
  · -- the midpoint is below
    obtain ⟨t, rfl⟩ : ∃ t, p = t + 1 := ⟨p - 1, by omega⟩
    have h1 : b32.mag q ≤ b32.mag t := b32.mag_mono (by omega)
    have h2 : b32.mag (q + 1) ≤ b32.mag (t + 1) := b32.mag_mono (by omega)
    have h3 := b32.mag_succ t
    have h4 := hb t
    generalize b32.ulp t = u at *
    have h0 : b32.mag (t + 1) ≤ 2 ^ 25 * u := by omega
    refine far_below (T := b32.mag t) (u := u) (by exact_mod_cast h3) (by exact_mod_cast h0) (by exact_mod_cast h1) (by exact_mod_cast h2) ?_
    have : 0 < u := by
      rcases Nat.eq_zero_or_pos u with rfl | h
      · have := b32.mag_strictMono (Nat.lt_succ_self t); simp only [Nat.succ_eq_add_one] at this; omega
      · exact h
    exact_mod_cast this
  · have h1 : b32.mag p ≤ b32.mag q := b32.mag_mono c
    have h2 : b32.mag (p + 1) ≤ b32.mag (q + 1) := b32.mag_mono (by omega)
    have h3 := b32.mag_succ p
    have h4 := hb p
    have h5 := b32.ulp_pos p
    generalize b32.ulp p = u at *
    have h0 : b32.mag p ≤ 2 ^ 24 * u := by omega
    have h6 : b32.mag p + u ≤ b32.mag (q + 1) := by omega
    exact far_above (u := u) (by exact_mod_cast h0) (by exact_mod_cast h1) (by exact_mod_cast h6) (by exact_mod_cast h5)

/-- Floats between the powers of two at the ends of the range. -/
theorem settled_float {p : Nat} (h1 : 2 ^ 23 < p) (h2 : p < 0x7F000000) : Settled (real b32 p) := by
  have hi : b32.inf = 255 * 2 ^ 23 := rfl
  refine Or.inr (Or.inr ⟨?_, ?_, far_float (by omega) (by omega)⟩)
  · rw [real_pat (show p < b32.inf by omega)]
    refine le_trans ?_ (R32_mono (show 1 * 2 ^ 23 + 1 ≤ p by omega) (by omega))
    rw [(R32_pat (by omega)).2, show b32.mag (1 * 2 ^ 23 + 1) = 2 ^ 23 + 1 by decide +kernel, show b32.unit = 149 from rfl]
    push_cast
    norm_num
  · rw [real_pat (show p < b32.inf by omega)]
    refine (R32_mono (show p ≤ 0x7EFFFFFF by omega) (by decide)).trans ?_
    rw [(R32_pat (by decide)).2, show b32.mag 0x7EFFFFFF = (2 ^ 24 - 1) * 2 ^ 252 by decide +kernel, show b32.unit = 149 from rfl, Nat.cast_mul, Nat.cast_pow 2 252, Nat.cast_ofNat]
    norm_num

/-- The rounding of a float is the float. -/
theorem rounded_eq {v : ℝ} {p r : Nat} (hp : Pat b32 p) (hf : Math.Spec.Finite b32 p) (h : real b32 p = v) (h0 : v ≠ 0) (hr : Rounded b32 v r) : r = p :=
  accurate_float (k := 27) le_rfl ⟨v, by simp, hr⟩ hp hf h h0

end Verif.Approx
