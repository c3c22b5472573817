import Verif.Approx.CplxHyp
import Verif.Approx.PropsAtan2
import Verif.Math.Expo

/-! # Quotients that may underflow, for `ctanhf` -/

namespace Verif.Approx
open Verif.Float Verif.Approx.Spec
open Verif.Math.Spec (Pat)

/-- A double below half of the smallest float. -/
theorem tiny_narrow {q : Nat} (hq : Fin b64 q) (h : |R b64 q| ≤ 1 / 2 ^ 151) : narrow q = b32.pack (b64.neg q) 0 := by
  have hu : (0 : ℝ) < 2 ^ b64.unit := by positivity
  rw [abs_R, div_le_div_iff₀ hu (by positivity), one_mul] at h
  have h' : b64.mag (b64.abs q) * 2 ^ 151 ≤ 2 ^ b64.unit := by exact_mod_cast h
  have e : b32.rnd (b64.mag (b64.abs q) * 2 ^ b32.unit) (2 ^ b64.unit) = 0 := by
    refine Verif.Float.rnd_tiny ok32 (by positivity) ?_
    rw [show b32.unit = 149 by rfl]
    generalize 2 ^ b64.unit = w at *
    omega
  unfold narrow Fmt.conv
  rw [Fmt.not_nan_of_fin hq, Fmt.isFin_iff.2 hq, if_neg (by simp), if_pos rfl, e]

theorem tiny_acc {v ε : ℝ} (hε : 0 ≤ ε) (hv : |v| ≤ 1 / 2 ^ 151) (h0 : v ≠ 0) : Accurate b32 ε v (b32.pack (decide (v < 0)) 0) := by
  have hr : Rounded b32 |v| 0 := by
    refine ⟨by unfold Pat; decide, ?_, fun _ => by unfold Math.Spec.negative; decide, fun h => absurd h (not_lt.2 (abs_nonneg v))⟩
    rw [abs_abs, show Math.Spec.absOf b32 0 = 0 by decide]
    refine nearest_zero ?_ (by decide)
    rw [show b32.unit = 149 by rfl]
    calc |v| * 2 ^ 149 ≤ 1 / 2 ^ 151 * 2 ^ 149 := mul_le_mul_of_nonneg_right hv (by positivity)
      _ ≤ 1 / 2 := by norm_num
  have h := rounded_sign hr (abs_pos.2 h0) (decide (v < 0))
  rw [show b32.abs 0 = 0 by decide] at h
  refine ⟨v, by rw [sub_self, abs_zero]; exact mul_nonneg hε (abs_nonneg _), ?_⟩
  convert h using 1
  by_cases hv : v < 0
  · simp [hv, abs_of_neg hv]
  · simp [hv, abs_of_nonneg (not_lt.1 hv)]

theorem sign_div {v w : ℝ} (hv0 : v ≠ 0) (hw0 : w ≠ 0) : (decide (v < 0) != decide (w < 0)) = decide (v / w < 0) := by
  rcases lt_or_gt_of_ne hv0 with a | a <;> rcases lt_or_gt_of_ne hw0 with b | b
  · rw [decide_eq_true a, decide_eq_true b, decide_eq_false (not_lt.2 (div_pos_of_neg_of_neg a b).le)]; rfl
  · rw [decide_eq_true a, decide_eq_false (not_lt.2 (le_of_lt b)), decide_eq_true (div_neg_of_neg_of_pos a b)]; rfl
  · rw [decide_eq_false (not_lt.2 (le_of_lt a)), decide_eq_true b, decide_eq_true (div_neg_of_pos_of_neg a b)]; rfl
  · rw [decide_eq_false (not_lt.2 (le_of_lt a)), decide_eq_false (not_lt.2 (le_of_lt b)), decide_eq_false (not_lt.2 (div_pos a b).le)]; rfl

theorem neg_fdiv {x y : Nat} (hx : Fin b64 x) (hy : Fin b64 y) (h0 : b64.abs y ≠ 0) : b64.neg (Arith.fdiv b64 x y) = (b64.neg x != b64.neg y) := by
  unfold Arith.fdiv
  rw [Fmt.not_nan_of_fin hx, Fmt.not_nan_of_fin hy, Fmt.isFin_iff.2 hx, Fmt.isFin_iff.2 hy, if_neg (by simp), if_pos rfl, if_pos rfl, if_neg h0]
  exact Fmt.neg_pack (Nat.lt_of_le_of_lt (Verif.Float.rnd_le _ _ (Fmt.mag_pos (Nat.pos_of_ne_zero h0))) Fmt.inf_lt)

/-- A quotient, rounded to `float`, however small. -/
theorem div_acc {x y : Nat} {v w ε δ θ η : ℝ} (hx : Rel x v ε) (hy : Rel y w δ) (hε : 0 ≤ ε ∧ 0 ≤ δ ∧ δ < 1) (hε1 : ε < 1) (hv : v ≠ 0) (hw : w ≠ 0)
    (hθ : (ε + δ) / (1 - δ) ≤ θ) (hθ1 : θ ≤ 1 / 2) (hB : |v / w| ≤ 2 ^ 240) (hη : θ + (1 + θ) / 2 ^ 53 + 1 / 2 ^ 50 ≤ η) :
    Accurate b32 η (v / w) (narrow (Arith.fdiv b64 x y)) := by
  have ha := abs_nonneg (v / w)
  obtain ⟨k1, k2⟩ := hx.div_abs hy hε hw hθ (by
    refine le_Mx ?_
    calc (1 + θ) * |v / w| ≤ 2 * 2 ^ 240 := mul_le_mul (by linarith) hB ha (by norm_num)
      _ ≤ 2 ^ 250 := by norm_num)
  have hθ0 : 0 ≤ θ := le_trans (div_nonneg (by linarith) (by linarith)) hθ
  have hη0 : 0 ≤ η := le_trans (by positivity) hη
  by_cases hs : 1 / 2 ^ 200 ≤ |v / w|
  · refine Rel.accurate ⟨k1, k2.trans ?_⟩
    have : (1 : ℝ) / 2 ^ 250 ≤ 1 / 2 ^ 50 * |v / w| := by
      refine le_trans ?_ (mul_le_mul_of_nonneg_left hs (by norm_num)); norm_num
    calc _ ≤ (θ + (1 + θ) / 2 ^ 53) * |v / w| + 1 / 2 ^ 50 * |v / w| := by linarith
      _ = (θ + (1 + θ) / 2 ^ 53 + 1 / 2 ^ 50) * |v / w| := by ring
      _ ≤ _ := mul_le_mul_of_nonneg_right hη ha
  · have hs := (not_le.1 hs).le
    obtain ⟨n1, n2⟩ := neg_of_rel hx hε1 hv
    obtain ⟨m1, m2⟩ := neg_of_rel hy hε.2.2 hw
    have hq : |R b64 (Arith.fdiv b64 x y)| ≤ 1 / 2 ^ 151 := by
      have a := abs_sub_abs_le_abs_sub (R b64 (Arith.fdiv b64 x y)) (v / w)
      have b : (θ + (1 + θ) / 2 ^ 53) * |v / w| ≤ 1 * (1 / 2 ^ 200) := mul_le_mul (by norm_num at *; linarith) hs ha (by norm_num)
      norm_num at *
      linarith
    rw [tiny_narrow k1 hq, neg_fdiv hx.fin hy.fin m2, n1, m1, sign_div hv hw]
    exact tiny_acc hη0 (hs.trans (by norm_num)) (div_ne_zero hv hw)

/-- A relative error, or an exact zero. -/
def RZ (p : Nat) (v ε : ℝ) : Prop := (v ≠ 0 ∧ Rel p v ε) ∨ (v = 0 ∧ b64.abs p = 0)

theorem narrow_zero64 (u : Bool) : narrow (b64.pack u 0) = b32.pack u 0 := by cases u <;> decide +kernel
theorem pack_zero_cases (u : Bool) : b32.pack u 0 = 0 ∨ b32.pack u 0 = 0x80000000 := by cases u <;> decide

theorem zero_fdiv {x y : Nat} (hx : b64.abs x = 0) (hy : Fin b64 y) (h0 : b64.abs y ≠ 0) : Arith.fdiv b64 x y = b64.pack (b64.neg x != b64.neg y) 0 := by
  have fx : Fin b64 x := by unfold Fin; rw [hx]; decide
  unfold Arith.fdiv
  rw [Fmt.not_nan_of_fin fx, Fmt.not_nan_of_fin hy, Fmt.isFin_iff.2 fx, Fmt.isFin_iff.2 hy, if_neg (by simp), if_pos rfl, if_pos rfl, if_neg h0, hx, b64.mag_zero, Nat.zero_mul,
    Verif.Float.rnd_zero _ (Fmt.mag_pos (Nat.pos_of_ne_zero h0))]

theorem zero_acc' {η : ℝ} (u : Bool) : Accurate b32 η 0 (b32.pack u 0) :=
  ⟨0, by simp, rounded_zero' (by unfold Pat; cases u <;> decide) (by cases u <;> decide) (by decide)⟩

theorem quot_acc {x y : Nat} {v w ε δ θ η : ℝ} (hx : RZ x v ε) (hy : Rel y w δ) (hε : 0 ≤ ε ∧ 0 ≤ δ ∧ δ < 1) (hε1 : ε < 1) (hw : w ≠ 0)
    (hθ : (ε + δ) / (1 - δ) ≤ θ) (hθ1 : θ ≤ 1 / 2) (hB : |v / w| ≤ 2 ^ 240) (hη : θ + (1 + θ) / 2 ^ 53 + 1 / 2 ^ 50 ≤ η) :
    Accurate b32 η (v / w) (narrow (Arith.fdiv b64 x y)) := by
  rcases hx with ⟨h0, hx⟩ | ⟨rfl, hx⟩
  · exact div_acc hx hy hε hε1 h0 hw hθ hθ1 hB hη
  · rw [zero_fdiv hx hy.fin (neg_of_rel hy hε.2.2 hw).2, zero_div, narrow_zero64]
    exact zero_acc' _

theorem accurate_shift {η κ η' v w : ℝ} {r : Nat} (h : Accurate b32 η v r) (hη : 0 ≤ η) (hw : |v - w| ≤ κ * |w|) (h' : η * (1 + κ) + κ ≤ η') : Accurate b32 η' w r := by
  obtain ⟨z, h1, h2⟩ := h
  refine ⟨z, ?_, h2⟩
  have a : |v| ≤ (1 + κ) * |w| := by
    have := abs_sub_abs_le_abs_sub v w
    linarith
  calc |z - w| ≤ |z - v| + |v - w| := abs_sub_le _ _ _
    _ ≤ η * ((1 + κ) * |w|) + κ * |w| := add_le_add (h1.trans (mul_le_mul_of_nonneg_left a hη)) hw
    _ = (η * (1 + κ) + κ) * |w| := by ring
    _ ≤ η' * |w| := mul_le_mul_of_nonneg_right h' (abs_nonneg _)

end Verif.Approx
