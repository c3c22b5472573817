import Verif.Approx.Atanh
import Verif.Math.Expo

/-! # Logarithms in `double`: reduction of the argument, the kernel, the sum -/

namespace Verif.Approx
open Verif.Float Verif.Approx.Spec
open Verif.Math.Spec (Pat absOf negative value)

/-! ### The reduced argument -/

theorem ratio_bound {Y : ℝ} (h : 0.7071 ≤ Y ∧ Y ≤ 1.41422) : |(Y - 1) / (Y + 1)| ≤ 0.17159 := by
  have h0 : 0 < Y + 1 := by linarith [h.1]
  rw [abs_div, abs_of_pos h0, div_le_iff₀ h0]
  refine abs_le.2 ⟨?_, ?_⟩ <;> linarith [h.1, h.2]

theorem log_ath {Y : ℝ} (h : 0 < Y) : Real.log Y = 2 * ath ((Y - 1) / (Y + 1)) := by
  have h1 : Y + 1 ≠ 0 := by linarith
  unfold ath
  rw [show 1 + (Y - 1) / (Y + 1) = 2 * Y / (Y + 1) by field_simp; ring, show 1 - (Y - 1) / (Y + 1) = 2 / (Y + 1) by field_simp; ring,
    Real.log_div (by positivity) h1, Real.log_div (by norm_num) h1, Real.log_mul (by norm_num) h.ne']
  ring

theorem log_reduced {Y : ℝ} (h : 0.7071 ≤ Y ∧ Y ≤ 1.41422) : |Real.log Y| ≤ 0.3467 := by
  obtain ⟨l1, l2⟩ := log_two_bounds
  have h0 : 0 < Y := by linarith [h.1]
  have e : Real.log Y = Real.log (Y ^ 2) / 2 := by rw [Real.log_pow]; push_cast; ring
  rw [e]
  have u1 : Real.log (Y ^ 2) ≤ Real.log (2 * 1.0001) := Real.log_le_log (by positivity) (by nlinarith [h.1, h.2])
  have u2 : Real.log ((2 * 1.0001)⁻¹) ≤ Real.log (Y ^ 2) := Real.log_le_log (by norm_num) (by
    have : (0.7071 : ℝ) ^ 2 ≤ Y ^ 2 := pow_le_pow_left₀ (by norm_num) h.1 2
    refine le_trans ?_ this
    norm_num)
  rw [Real.log_inv] at u2
  rw [Real.log_mul (by norm_num) (by norm_num)] at u1 u2
  have u3 := Real.log_le_sub_one_of_pos (show (0 : ℝ) < 1.0001 by norm_num)
  norm_num at *
  exact abs_le.2 ⟨by linarith, by linarith⟩

/-- `(y - 1) / (y + 1)` -/
theorem ratio_ap {y : Nat} (hy : Fin b64 y) (h : 0.7071 ≤ R b64 y ∧ R b64 y ≤ 1.41422) :
    Ap (ratio y) ((R b64 y - 1) / (R b64 y + 1)) (|(R b64 y - 1) / (R b64 y + 1)| * (4 / 2 ^ 53) + 1 / 2 ^ 250) ∧
      (R b64 y = 1 → R b64 (ratio y) = 0) := by
  have hb := ratio_bound h
  have h1 : R b64 one = 1 := by rw [k_one.2]; norm_num
  obtain ⟨s1, s2⟩ := sub_err ok64 big64.top hy k_one.1 (by rw [h1]; exact abs_le.2 ⟨by linarith [h.1], by linarith [h.2]⟩)
  obtain ⟨a1, a2⟩ := add_err ok64 big64.top hy k_one.1 (by rw [h1]; exact abs_le.2 ⟨by linarith [h.1], by linarith [h.2]⟩)
  rw [h1, eps64] at s2 a2
  have r1 : Rel (b64.sub y one) (R b64 y - 1) (1 / 2 ^ 53) := ⟨s1, s2⟩
  have r2 : Rel (b64.add y one) (R b64 y + 1) (1 / 2 ^ 53) := ⟨a1, a2⟩
  have hw : R b64 y + 1 ≠ 0 := by linarith [h.1]
  obtain ⟨d1, d2⟩ := r1.div_abs r2 (θ := 2.5 / 2 ^ 53) (by norm_num) hw (by norm_num) (le_Mx (by
    have := mul_le_mul_of_nonneg_left hb (show (0 : ℝ) ≤ 1 + 2.5 / 2 ^ 53 by norm_num)
    exact this.trans (by norm_num)))
  refine ⟨⟨d1, d2.trans ?_⟩, fun e => ?_⟩
  · have := abs_nonneg ((R b64 y - 1) / (R b64 y + 1))
    linarith
  · rw [e] at s2 a2
    norm_num at s2
    have hy0 : R b64 (b64.add y one) ≠ 0 := by
      intro e0; rw [e0] at a2; norm_num [abs_of_neg] at a2
    obtain ⟨-, k⟩ := div_err big64.top s1 a1 hy0 (by rw [s2]; norm_num)
    have z : Arith.fdiv b64 (b64.sub y one) (b64.add y one) = b64.pack (b64.neg (b64.sub y one) != b64.neg (b64.add y one)) 0 := by
      unfold Arith.fdiv
      rw [Fmt.not_nan_of_fin s1, Fmt.not_nan_of_fin a1, Fmt.isFin_iff.2 s1, Fmt.isFin_iff.2 a1]
      have : b64.abs (b64.add y one) ≠ 0 := fun e0 => hy0 (by rw [R_signed, e0, b64.mag_zero]; simp)
      simp only [Bool.false_eq_true, or_self, if_false, if_true, if_neg this, R_zero s2, b64.mag_zero, Nat.zero_mul]
      rw [rnd_zero _ ?_]
      rcases Nat.eq_zero_or_pos (b64.mag (b64.abs (b64.add y one))) with h | h
      · exact absurd (Fmt.mag_eq_zero.1 h) this
      · exact h
    unfold ratio
    rw [z, R_pack (Nat.zero_le _), b64.mag_zero]; simp

/-- The logarithm of the reduced argument. -/
theorem kernel_log {y : Nat} (hy : Fin b64 y) (h : 0.7071 ≤ R b64 y ∧ R b64 y ≤ 1.41422) :
    Ap (kernelAtanh (ratio y)) (Real.log (R b64 y) / 2) (|Real.log (R b64 y)| * (0.661 / 10 ^ 11) + 1 / 2 ^ 244) ∧
      (R b64 y = 1 → R b64 (kernelAtanh (ratio y)) = 0) := by
  obtain ⟨r1, r2⟩ := ratio_ap hy h
  have hb := ratio_bound h
  have hl := log_ath (Y := R b64 y) (by linarith [h.1])
  have ht := abs_le_ath (t := (R b64 y - 1) / (R b64 y + 1)) (lt_of_le_of_lt hb (by norm_num))
  rw [hl]
  generalize (R b64 y - 1) / (R b64 y + 1) = t at *
  have hT : |R b64 (ratio y)| ≤ 0.1716 := (r1.abs_le le_rfl).trans (by
    have := mul_le_mul_of_nonneg_right hb (show (0 : ℝ) ≤ 4 / 2 ^ 53 by norm_num)
    linarith)
  refine ⟨?_, fun e => ?_⟩
  · have k := kernelAtanh_ap r1.fin hT
    have l := ath_lip hT (hb.trans (by norm_num))
    have k1 := k.shift (l.trans (mul_le_mul_of_nonneg_left r1.err (by norm_num)))
    rw [mul_div_cancel_left₀ _ (by norm_num : (2 : ℝ) ≠ 0), abs_mul, abs_of_pos (by norm_num : (0 : ℝ) < 2)]
    refine k1.mono ?_
    have b := r1.abs_le le_rfl
    have c := abs_nonneg t
    linarith
  · have k := (kernelAtanh_rel r1.fin hT (Or.inl (r2 e))).err
    rw [r2 e, ath_zero] at k
    simpa using k

/-- The logarithm of the reduced argument, in another base. -/
theorem kernel_scaled {y K : Nat} {c : ℝ} (hy : Fin b64 y) (h : 0.7071 ≤ R b64 y ∧ R b64 y ≤ 1.41422) (hc : 0.4 ≤ c ∧ c ≤ 1.5) (hK : Fin b64 K)
    (hK' : |R b64 K - 2 * c| ≤ 2 * c / 2 ^ 52) :
    Ap (b64.mul K (kernelAtanh (ratio y))) (c * Real.log (R b64 y)) (c * |Real.log (R b64 y)| * (1.33 / 10 ^ 11) + 1 / 2 ^ 242) ∧
      (R b64 y = 1 → R b64 (b64.mul K (kernelAtanh (ratio y))) = 0) := by
  obtain ⟨k1, k2⟩ := kernel_log hy h
  have hl := log_reduced h
  refine ⟨?_, fun e => (mul_zeroR hK k1.fin (Or.inr (k2 e))).2⟩
  have hc0 : 0 ≤ c := by linarith [hc.1]
  have hKc : Ap K (2 * c) (2 * c / 2 ^ 52) := ⟨hK, hK'⟩
  have hw : |Real.log (R b64 y) / 2| ≤ |Real.log (R b64 y)| / 2 := by rw [abs_div]; simp
  have h0 := abs_nonneg (Real.log (R b64 y))
  have h1 := mul_nonneg hc0 h0
  have h2 := mul_le_mul_of_nonneg_left hl hc0
  have m := hKc.mul k1 (V := 2 * c) (by rw [abs_of_nonneg (by linarith)]) hw (by linarith [hc.2])
  rw [show 2 * c * (Real.log (R b64 y) / 2) = c * Real.log (R b64 y) by ring] at m
  refine m.mono ?_
  linarith [hc.2]

theorem kernel_scaled_rel {y K : Nat} {c : ℝ} (hy : Fin b64 y) (h : 0.7071 ≤ R b64 y ∧ R b64 y ≤ 1.41422) (hc : 0.4 ≤ c ∧ c ≤ 1.5) (hK : Fin b64 K)
    (hK' : |R b64 K - 2 * c| ≤ 2 * c / 2 ^ 52) (hg : R b64 y = 1 ∨ 1 / 2 ^ 100 ≤ |R b64 y - 1|) :
    Rel (b64.mul K (kernelAtanh (ratio y))) (c * Real.log (R b64 y)) (1.34 / 10 ^ 11) := by
  obtain ⟨k1, k2⟩ := kernel_scaled hy h hc hK hK'
  refine ⟨k1.fin, ?_⟩
  rcases hg with hg | hg
  · rw [k2 hg, hg]; simp
  · refine k1.err.trans ?_
    have hb := ratio_bound h
    have ht := abs_le_ath (t := (R b64 y - 1) / (R b64 y + 1)) (lt_of_le_of_lt hb (by norm_num))
    have hl := log_ath (Y := R b64 y) (by linarith [h.1])
    have h1 : 0 < R b64 y + 1 := by linarith [h.1]
    have h3 : |R b64 y - 1| / 2.5 ≤ |(R b64 y - 1) / (R b64 y + 1)| := by
      rw [abs_div, abs_of_pos h1]
      exact div_le_div_of_nonneg_left (abs_nonneg _) h1 (by linarith [h.2])
    have h4 : |Real.log (R b64 y)| = 2 * |ath ((R b64 y - 1) / (R b64 y + 1))| := by rw [hl, abs_mul]; norm_num
    have h5 : 1 / 2 ^ 102 ≤ |Real.log (R b64 y)| := by
      rw [h4]
      have : (1 : ℝ) / 2 ^ 100 / 2.5 ≤ |R b64 y - 1| / 2.5 := div_le_div_of_nonneg_right hg (by norm_num)
      have := this.trans (h3.trans ht)
      refine le_trans ?_ (mul_le_mul_of_nonneg_left this (by norm_num : (0 : ℝ) ≤ 2))
      norm_num
    have h6 := mul_le_mul hc.1 h5 (by norm_num) (by linarith [hc.1])
    rw [abs_mul, abs_of_pos (by linarith [hc.1] : 0 < c)]
    generalize c * |Real.log (R b64 y)| = q at *
    linarith

/-! ### The exponent -/

theorem ofInt_R {e : Int} (h : -2000 ≤ e ∧ e ≤ 2000) : Fin b64 (b64.ofInt e) ∧ R b64 (b64.ofInt e) = e := by
  have hb : e.natAbs * 2 ^ b64.unit ≤ b64.mag (1034 * 2 ^ 52) := by
    rw [show b64.mag (1034 * 2 ^ 52) = 2 ^ 11 * 2 ^ b64.unit from mag_unit 11]
    exact Nat.mul_le_mul_right _ (by omega)
  have hlt : b64.mag (1034 * 2 ^ 52) < b64.mag b64.inf := b64.mag_strictMono (by decide)
  obtain ⟨p1, p2⟩ := Math.ofInt_exact ok64 (k := e) (by rw [show b64.f = 52 from rfl]; omega) (Nat.le_of_lt (Nat.lt_of_le_of_lt hb hlt))
  rw [Math.value_eq p1] at p2
  have hu : (0 : ℝ) < 2 ^ b64.unit := by positivity
  have hn : (2 : Int) ^ b64.unit = ((2 ^ b64.unit : Nat) : Int) := by generalize b64.unit = u; simp
  refine ⟨?_, ?_⟩
  · have h2 := Fmt.natAbs_val (F := b64) (b64.ofInt e)
    rw [p2, Int.natAbs_mul, hn, Int.natAbs_natCast] at h2
    rw [h2] at hb
    exact (Fmt.mag_lt_iff (F := b64)).1 (Nat.lt_of_le_of_lt hb hlt)
  · unfold R
    rw [p2]
    push_cast
    field_simp

/-- `exponent * ln2`, in any base. -/
theorem exponent_ap {e : Int} (h : -1100 ≤ e ∧ e ≤ 1100) {K : Nat} {c : ℝ} (hc : 0 ≤ c ∧ c ≤ 1.1) (hK : Fin b64 K) (hK' : |R b64 K - c| ≤ 1 / 2 ^ 53) :
    Ap (b64.mul (b64.ofInt e) K) (e * c) (|(e : ℝ)| * (3 / 2 ^ 53) + 1 / 2 ^ 250) := by
  obtain ⟨i1, i2⟩ := ofInt_R (e := e) (by omega)
  have k : Ap (b64.ofInt e) e 0 := ⟨i1, by rw [i2]; simp⟩
  have hl : |(e : ℝ)| ≤ 1100 := abs_le.2 ⟨by exact_mod_cast h.1, by exact_mod_cast h.2⟩
  have h0 := abs_nonneg (e : ℝ)
  have m := k.mul (⟨hK, hK'⟩ : Ap K c (1 / 2 ^ 53)) le_rfl (W := 1.1) (abs_le.2 ⟨by linarith [hc.1], hc.2⟩) (by linarith)
  refine m.mono ?_
  linarith

/-- The sum of both logarithms. -/
theorem log_sum {a b : Nat} {c Y : ℝ} {e : Int} (h : 0.7071 ≤ Y ∧ Y ≤ 1.41422) (hc : 0.4 ≤ c ∧ c ≤ 1.5) (he : e ≠ 0) (he' : -1100 ≤ e ∧ e ≤ 1100)
    (ha : Ap a (c * Real.log Y) (c * |Real.log Y| * (1.33 / 10 ^ 11) + 1 / 2 ^ 242)) (hb : Ap b (e * (c * Real.log 2)) (|(e : ℝ)| * (3 / 2 ^ 53) + 1 / 2 ^ 250)) :
    Rel (b64.add a b) (c * (Real.log Y + e * Real.log 2)) (1 / 2 ^ 36) := by
  have hl := log_reduced h
  obtain ⟨l1, l2⟩ := log_two_bounds
  have hc0 : 0 < c := by linarith [hc.1]
  have e1 : 1 ≤ |(e : ℝ)| := by
    rw [← Int.cast_abs]; exact_mod_cast Int.one_le_abs he
  have e2 : |(e : ℝ)| ≤ 1100 := abs_le.2 ⟨by exact_mod_cast he'.1, by exact_mod_cast he'.2⟩
  have q1 : |(e : ℝ)| * 0.3464 ≤ |Real.log Y + e * Real.log 2| := by
    have a1 := abs_sub_abs_le_abs_sub (e * Real.log 2) (-Real.log Y)
    rw [abs_neg, abs_mul, abs_of_pos (by linarith : 0 < Real.log 2), sub_neg_eq_add, add_comm (e * Real.log 2)] at a1
    have a2 := mul_le_mul_of_nonneg_left l1 (abs_nonneg (e : ℝ))
    norm_num at *
    linarith
  have q2 : |Real.log Y + e * Real.log 2| ≤ 800 := by
    refine (abs_add_le _ _).trans ?_
    rw [abs_mul, abs_of_pos (by linarith : 0 < Real.log 2)]
    have := mul_le_mul e2 l2 (by linarith) (by norm_num)
    norm_num at *
    linarith
  have hq : c * (Real.log Y + e * Real.log 2) = c * Real.log Y + e * (c * Real.log 2) := by ring
  rw [hq]
  have q3 : |c * Real.log Y + e * (c * Real.log 2)| = c * |Real.log Y + e * Real.log 2| := by rw [← hq, abs_mul, abs_of_pos hc0]
  have q4 : c * |Real.log Y| ≤ 1.001 * (c * |Real.log Y + e * Real.log 2|) := by
    rw [mul_left_comm]
    refine mul_le_mul_of_nonneg_left ?_ hc0.le
    linarith
  have q5 : |(e : ℝ)| * 0.13 ≤ c * |Real.log Y + e * Real.log 2| := by
    have := mul_le_mul hc.1 q1 (by positivity) hc0.le
    refine le_trans ?_ this
    linarith
  have q6 : c * |Real.log Y + e * Real.log 2| ≤ 1200 := (mul_le_mul hc.2 q2 (abs_nonneg _) (by norm_num)).trans (by norm_num)
  refine Rel.add_abs ha.fin hb.fin ha.err hb.err le_rfl (le_Mx ?_) ?_ <;> rw [q3] <;>
    generalize c * |Real.log Y + e * Real.log 2| = q at * <;> generalize c * |Real.log Y| = w at * <;> generalize |(e : ℝ)| = k at * <;> clear q3 hq <;> linarith

/-! ### Reduction -/

theorem k_split : Fin b64 0x3FE6A09E667F3BCD ∧ R b64 0x3FE6A09E667F3BCD = 6369051672525773 / 2 ^ 53 := by
  exact_mod_cast lit_pos (x := 0x3FE6A09E667F3BCD) (E := 1022) (m := 6369051672525773) (k := 53) (by norm_num) (by norm_num) (by norm_num) (by norm_num)

theorem k_split' : Fin b64 0x3FF6A09E667F3BCD ∧ R b64 0x3FF6A09E667F3BCD = 6369051672525773 / 2 ^ 52 := by
  exact_mod_cast lit_pos (x := 0x3FF6A09E667F3BCD) (E := 1023) (m := 6369051672525773) (k := 52) (by norm_num) (by norm_num) (by norm_num) (by norm_num)

theorem R_mono {a b : Nat} (h : a ≤ b) (hb : b < b64.inf) : R b64 a ≤ R b64 b := by
  rw [(R_small (Nat.lt_of_le_of_lt h hb)).2, (R_small hb).2]
  exact div_le_div_of_nonneg_right (by exact_mod_cast b64.mag_mono h) (by positivity)

/-- Splitting a normal positive double. -/
theorem split64 {p : Nat} (h1 : 2 ^ 52 ≤ p) (h2 : p < b64.inf) :
    Fin b64 (fraction64 p) ∧ (0.7071 ≤ R b64 (fraction64 p) ∧ R b64 (fraction64 p) ≤ 1.41422) ∧ R b64 p = R b64 (fraction64 p) * 2 ^ exponent64 p ∧
      (-1100 ≤ exponent64 p ∧ exponent64 p ≤ 1100) ∧ (exponent64 p = 0 → fraction64 p = p) := by
  have hinf : b64.inf = 2047 * 2 ^ 52 := rfl
  have e1 : s64 p = p := by unfold s64; omega
  have d1 := Int.emod_add_mul_ediv ((p : Int) - 0x3FE6A09E667F3BCD) (2 ^ 52)
  have d2 := Int.emod_nonneg ((p : Int) - 0x3FE6A09E667F3BCD) (show (2 ^ 52 : Int) ≠ 0 by norm_num)
  have d3 := Int.emod_lt_of_pos ((p : Int) - 0x3FE6A09E667F3BCD) (show (0 : Int) < 2 ^ 52 by norm_num)
  unfold fraction64 exponent64
  rw [e1]
  generalize ((p : Int) - 0x3FE6A09E667F3BCD) / 2 ^ 52 = e at *
  generalize ((p : Int) - 0x3FE6A09E667F3BCD) % 2 ^ 52 = r at *
  have hf : ∃ y : Nat, u64 (p - e * 2 ^ 52) = y ∧ (y : Int) = p - e * 2 ^ 52 := ⟨u64 (p - e * 2 ^ 52), rfl, by unfold u64; omega⟩
  obtain ⟨y, y1, y2⟩ := hf
  rw [y1]
  have y3 : 0x3FE6A09E667F3BCD ≤ y ∧ y ≤ 0x3FF6A09E667F3BCD := by omega
  have y4 : y < b64.inf := by omega
  obtain ⟨f1, f2⟩ := R_small y4
  refine ⟨f1, ⟨?_, ?_⟩, ?_, by omega, by omega⟩
  · have := R_mono y3.1 y4
    rw [k_split.2] at this
    refine le_trans ?_ this; norm_num
  · have := R_mono y3.2 (by decide)
    rw [k_split'.2] at this
    refine this.trans ?_; norm_num
  · rw [(R_small h2).2, f2]
    rcases Int.le_total 0 e with h | h
    · obtain ⟨k, rfl⟩ := Int.eq_ofNat_of_zero_le h
      rw [show p = y + k * 2 ^ 52 by omega, mag_scale64 (by omega)]
      push_cast
      rw [zpow_natCast]; ring
    · obtain ⟨k, hk⟩ := Int.eq_ofNat_of_zero_le (show 0 ≤ -e by omega)
      obtain rfl : e = -(k : Int) := by omega
      have := mag_scale64 (y := p) (k := k) h1
      rw [show p + k * 2 ^ 52 = y by omega] at this
      rw [this]
      push_cast
      rw [zpow_neg, zpow_natCast]
      field_simp

/-- Splitting a positive float, subnormal or not. -/
theorem split32 {x : Nat} (h0 : 0 < x) (hx : x < b32.inf) :
    ∃ i, Math.normalize Math.flt x = some i ∧ Fin b64 (fraction32 i) ∧ (0.7071 ≤ R b64 (fraction32 i) ∧ R b64 (fraction32 i) ≤ 1.41422) ∧
      R b32 x = R b64 (fraction32 i) * 2 ^ exponent32 i ∧ (-1100 ≤ exponent32 i ∧ exponent32 i ≤ 1100) ∧
      (R b64 (fraction32 i) = 1 ∨ 1 / 2 ^ 100 ≤ |R b64 (fraction32 i) - 1|) := by
  obtain ⟨E, m, n1, n2, n3, n4, n5, n6⟩ := Math.normalize_eq Math.good_flt h0 hx
  refine ⟨_, n1, ?_⟩
  rw [show Math.flt.fmt = b32 from rfl] at n2 n3 n4 n5 n6 ⊢
  rw [show b32.f = 23 from rfl] at n2 n3 n4 ⊢
  rw [show b32.bias = 127 from rfl] at n5
  have d1 := Int.emod_add_mul_ediv (E * ((2 ^ 23 : Nat) : Int) + ((m - 2 ^ 23 : Nat) : Int) - 0x3F3504F4) (2 ^ 23)
  have d2 := Int.emod_nonneg (E * ((2 ^ 23 : Nat) : Int) + ((m - 2 ^ 23 : Nat) : Int) - 0x3F3504F4) (show (2 ^ 23 : Int) ≠ 0 by norm_num)
  have d3 := Int.emod_lt_of_pos (E * ((2 ^ 23 : Nat) : Int) + ((m - 2 ^ 23 : Nat) : Int) - 0x3F3504F4) (show (0 : Int) < 2 ^ 23 by norm_num)
  unfold fraction32 exponent32
  generalize hi : E * ((2 ^ 23 : Nat) : Int) + ((m - 2 ^ 23 : Nat) : Int) = i at *
  generalize (i - 0x3F3504F4) / 2 ^ 23 = e at *
  generalize (i - 0x3F3504F4) % 2 ^ 23 = r at *
  obtain ⟨F, hF⟩ : ∃ F : Nat, (F : Int) = E - e := ⟨(E - e).toNat, by omega⟩
  have hy : u32 (i - e * 2 ^ 23) = F * 2 ^ 23 + (m - 2 ^ 23) := by unfold u32; omega
  rw [hy]
  have hF' : F = 126 ∨ F = 127 := by omega
  have hlt : F * 2 ^ 23 + (m - 2 ^ 23) < b32.inf := by
    have : b32.inf = 255 * 2 ^ 23 := rfl
    omega
  have hm : b32.mag (F * 2 ^ 23 + (m - 2 ^ 23)) = m * 2 ^ (F - 1) := b32.mag_mk F m (by omega) n2 n3
  have hR : ∀ {z : Nat}, z < b32.inf → Fin b32 z ∧ R b32 z = b32.mag z / 2 ^ b32.unit := by
    intro z hz
    have e : b32.pack false z = z := by simp [Fmt.pack]
    refine ⟨by have := fin_pack (F := b32) (s := false) hz; rwa [e] at this, ?_⟩
    have := R_pack (F := b32) (s := false) hz.le
    rw [e] at this
    rw [this]; simp
  obtain ⟨f1, f2⟩ := hR hlt
  obtain ⟨w1, w2, -, -⟩ := wideR f1
  have hm0 : (2 : ℝ) ^ 23 ≤ m := by exact_mod_cast n2
  have hv : R b64 (wide (F * 2 ^ 23 + (m - 2 ^ 23))) = m * 2 ^ (F - 1) / 2 ^ 149 := by
    rw [w2, f2, hm, show b32.unit = 149 from rfl]; push_cast; rfl
  refine ⟨w1, ?_, ?_, by omega, ?_⟩
  · rw [hv]
    have l1 : F = 126 → 0xB504F4 ≤ m := by omega
    have l2 : F = 127 → m < 0xB504F4 := by omega
    rcases hF' with rfl | rfl
    · have a1 : (0xB504F4 : ℝ) ≤ m := by exact_mod_cast l1 rfl
      have a2 : (m : ℝ) < 2 ^ 24 := by exact_mod_cast n3
      rw [show (m : ℝ) * 2 ^ (126 - 1) / 2 ^ 149 = m * (1 / 2 ^ 24) by norm_num; ring]
      constructor <;> linarith only [a1, a2]
    · have a2 : (m : ℝ) < 0xB504F4 := by exact_mod_cast l2 rfl
      rw [show (m : ℝ) * 2 ^ (127 - 1) / 2 ^ 149 = m * (1 / 2 ^ 23) by norm_num; ring]
      constructor <;> linarith only [a2, hm0]
  · rw [w2, f2, hm, (hR hx).2]
    have hu : (2 : ℝ) ^ b32.unit ≠ 0 := by positivity
    rw [div_mul_eq_mul_div]
    rw [div_left_inj' hu]
    have hn : (b32.mag x : ℝ) * 2 ^ (1 - E).toNat = m * 2 ^ (E - 1).toNat := by exact_mod_cast n6
    have he : e = E - F := by omega
    rw [he]
    push_cast
    have hz : ∀ {a : Int} {k : Nat}, (k : Int) = a → (2 : ℝ) ^ k = 2 ^ a := by
      intro a k h; rw [← h, zpow_natCast]
    rw [mul_assoc, hz (show ((F - 1 : Nat) : Int) = F - 1 by omega), ← zpow_add₀ (by norm_num)]
    rw [show (F : Int) - 1 + (E - F) = E - 1 by ring]
    rcases Int.le_total E 1 with h | h
    · rw [show (E - 1).toNat = 0 by omega, pow_zero, mul_one] at hn
      rw [← hn, hz (show (((1 - E).toNat : Nat) : Int) = 1 - E by omega), mul_assoc, ← zpow_add₀ (by norm_num)]
      simp
    · rw [show (1 - E).toNat = 0 by omega, pow_zero, mul_one] at hn
      rw [hn, hz (show (((E - 1).toNat : Nat) : Int) = E - 1 by omega)]
  · rw [hv]
    have key : ∀ {n : Int}, n ≠ 0 → (1 : ℝ) / 2 ^ 100 ≤ |(n : ℝ) / 2 ^ 24| := by
      intro n hn
      have : (1 : ℝ) ≤ |(n : ℝ)| := by rw [← Int.cast_abs]; exact_mod_cast Int.one_le_abs hn
      rw [abs_div, abs_of_pos (by norm_num : (0 : ℝ) < 2 ^ 24), div_le_div_iff₀ (by norm_num) (by norm_num)]
      norm_num
      linarith
    rcases hF' with rfl | rfl
    · have := key (n := m - 2 ^ 24) (by omega)
      right
      push_cast at this
      convert this using 2
      norm_num
      ring
    · rcases Nat.lt_or_ge (2 ^ 23) m with hc | hc
      · have := key (n := 2 * m - 2 ^ 24) (by omega)
        right
        push_cast at this
        convert this using 2
        norm_num
        ring
      · left
        have : m = 2 ^ 23 := by omega
        subst this
        norm_num

end Verif.Approx
