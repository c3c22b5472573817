import Verif.Approx.Expf
import Verif.Approx.Hard
import Verif.Approx.Rel
import Mathlib.Analysis.Complex.ExponentialBounds

/-! # The error of `expm1f` and of the exponentials behind the hyperbolic functions -/

namespace Verif.Approx
open Verif.Float Verif.Approx.Spec
open Verif.Math.Spec (Pat)

theorem log_two_bounds : 0.69314718055994530 ≤ Real.log 2 ∧ Real.log 2 ≤ 0.69314718055994531 := by
  have := abs_le.1 log_two_sharp
  constructor <;> norm_num at * <;> linarith

/-- `exp` below the logarithm of the largest double. -/
theorem exp_le_Mx {X : ℝ} (h : X ≤ 709.78266) : 1.00003 * Real.exp X ≤ Mx := by
  obtain ⟨l1, l2⟩ := log_two_bounds
  have h1 : X ≤ (1024 : Int) * Real.log 2 + -(5.2 / 10 ^ 5) := by push_cast; norm_num at *; linarith
  have h2 := Real.exp_le_exp.2 h1
  rw [Real.exp_add, exp_pow, Real.exp_neg] at h2
  have h3 := Real.add_one_le_exp (5.2 / 10 ^ 5 : ℝ)
  have h4 : (Real.exp (5.2 / 10 ^ 5))⁻¹ ≤ (1 + 5.2 / 10 ^ 5)⁻¹ := inv_anti₀ (by norm_num) (by linarith)
  have h5 : (2 : ℝ) ^ (1024 : Int) = 2 ^ 1024 := zpow_natCast 2 1024
  rw [h5] at h2
  unfold Mx
  have h6 : (0 : ℝ) < 2 ^ 1024 := by positivity
  generalize (2 : ℝ) ^ 1024 = w at *
  have h7 := h2.trans (mul_le_mul_of_nonneg_left h4 h6.le)
  calc 1.00003 * Real.exp X ≤ 1.00003 * (w * (1 + 5.2 / 10 ^ 5)⁻¹) := mul_le_mul_of_nonneg_left h7 (by norm_num)
    _ = (1.00003 * (1 + 5.2 / 10 ^ 5)⁻¹) * w := by ring
    _ ≤ _ := mul_le_mul_of_nonneg_right (by norm_num) h6.le

/-- `shift_(1 + kernel_expf_(a), n)` where `a` is close to the argument less `n` times the logarithm of two. -/
theorem exp_shift {a : Nat} {X s δ : ℝ} {n : Int} (ha : Ap a s δ) (hδ : δ ≤ 2 / 10 ^ 13) (hs : X = s + n * Real.log 2) (hs' : |s| ≤ 0.3469)
    (hn : -1000 ≤ n) (hX : X ≤ 709.78266) :
    ∃ z, shift (b64.add one (kernelExp a)) n = some z ∧ Rel z (Real.exp X) (0.83 / 10 ^ 13 + 2 * δ) ∧ Pat b64 z := by
  obtain ⟨y1, y2, y3, y4, y5⟩ := exp_core ha hδ hs'
  obtain ⟨l1, l2⟩ := log_two_bounds
  obtain ⟨s1, s2⟩ := exp_range hs'
  generalize b64.add one (kernelExp a) = y at *
  have hδ0 := ha.nonneg
  have hε : 0.83 / 10 ^ 13 + 2 * δ ≤ 5 / 10 ^ 13 := by norm_num at *; linarith
  have hy := abs_le.1 (y5.trans (mul_le_mul_of_nonneg_right hε (Real.exp_pos s).le))
  have hn1 : n ≤ 1024 := by
    by_contra hc
    have : (1025 : Int) ≤ n := by omega
    have : (1025 : ℝ) ≤ n := by exact_mod_cast this
    have h1 := (abs_le.1 hs').1
    have : 1025 * Real.log 2 ≤ n * Real.log 2 := mul_le_mul_of_nonneg_right this (by linarith)
    norm_num at *; linarith
  have hz : ∃ z, shift y n = some z ∧ Fin b64 z ∧ R b64 z = R b64 y * 2 ^ n ∧ Pat b64 z := by
    rcases Nat.lt_or_ge n.toNat 1024 with h | h
    · refine shift_R' (k := 1) y2 y3 ?_ (by omega) (by omega)
      have : 5 / 10 ^ 13 * Real.exp s ≤ 5 / 10 ^ 13 * 1.42 := mul_le_mul_of_nonneg_left s2 (by norm_num)
      norm_num at *; linarith
    · refine shift_R' (k := 0) y2 y3 ?_ (by omega) (by omega)
      have hn2 : n = 1024 := by omega
      subst hn2
      have h1 : s ≤ -(5.2 / 10 ^ 5) := by push_cast at hs; norm_num at *; linarith
      have h2 := Real.exp_le_exp.2 h1
      rw [Real.exp_neg] at h2
      have h3 := Real.add_one_le_exp (5.2 / 10 ^ 5 : ℝ)
      have h4 : (Real.exp (5.2 / 10 ^ 5))⁻¹ ≤ (1 + 5.2 / 10 ^ 5)⁻¹ := inv_anti₀ (by norm_num) (by linarith)
      have h5 := h2.trans h4
      have : 5 / 10 ^ 13 * Real.exp s ≤ 5 / 10 ^ 13 * 1.42 := mul_le_mul_of_nonneg_left s2 (by norm_num)
      norm_num at *; linarith
  obtain ⟨z, z1, z2, z3, z4⟩ := hz
  refine ⟨z, z1, ⟨z2, ?_⟩, z4⟩
  have hpow : (0 : ℝ) < 2 ^ n := zpow_pos (by norm_num) n
  have hv' : Real.exp X = Real.exp s * 2 ^ n := by rw [hs, Real.exp_add, exp_pow]
  rw [abs_of_pos (Real.exp_pos X), z3, hv', ← sub_mul, abs_mul, abs_of_pos hpow, ← mul_assoc]
  exact mul_le_mul_of_nonneg_right y5 hpow.le

/-! ### `expm1f_` -/

theorem k_log2ef : Fin b32 0x3FB8AA3B ∧ R b32 0x3FB8AA3B = 12102203 / 2 ^ 23 := by
  have := lit32 (x := 0x3FB8AA3B) (m := 12102203) (k := 23) (s := false) (by decide) (by decide) (by decide +kernel)
  norm_num at this ⊢; exact this

theorem eps32 : eps b32 = 1 / 2 ^ 24 := rfl
theorem eta32 : eta b32 ≤ 1 / 2 ^ 150 := by
  unfold eta
  rw [show b32.unit = 149 by rfl]
  norm_num

theorem reduce32 {x : Nat} (hx : Fin b32 x) (hb : |R b32 x| ≤ 710) :
    ∃ n : Int, Fin b32 (b32.add (b32.rint (b32.mul x 0x3FB8AA3B)) 0) ∧ R b32 (b32.add (b32.rint (b32.mul x 0x3FB8AA3B)) 0) = n ∧
      |R b32 x - n * Real.log 2| ≤ 0.3467 := by
  have hC : |R b32 0x3FB8AA3B| ≤ 1.4427 := by rw [k_log2ef.2]; norm_num [abs_of_pos]
  have hm : |R b32 x * R b32 0x3FB8AA3B| ≤ 710 * 1.4427 := by
    rw [abs_mul]; exact mul_le_mul hb hC (abs_nonneg _) (by norm_num)
  obtain ⟨m1, m2⟩ := mul_err big32.top hx k_log2ef.1 (hm.trans (by norm_num))
  rw [eps32] at m2
  have m3 := abs_le.1 (m2.trans (add_le_add (mul_le_mul_of_nonneg_left hm (by norm_num)) eta32))
  have hm' := abs_le.1 hm
  obtain ⟨n, n1, n2, n3, n4⟩ := rint_R big32 m1 (by
    refine abs_le.2 ⟨?_, ?_⟩ <;> norm_num at * <;> linarith)
  obtain ⟨a1, a2, a3⟩ := add_zeroR ok32 n1
  refine ⟨n, a1, a2.trans n2, ?_⟩
  generalize R b32 (b32.mul x 0x3FB8AA3B) = M at *
  obtain ⟨l1, l2⟩ := log_two_bounds
  have e : R b32 x - n * Real.log 2 = (R b32 x * R b32 0x3FB8AA3B - n) * Real.log 2 - R b32 x * (R b32 0x3FB8AA3B * Real.log 2 - 1) := by ring
  rw [e]
  have n5 := abs_le.1 n3
  have f : |(R b32 x * R b32 0x3FB8AA3B - n) * Real.log 2| ≤ 0.5001 * 0.6931471806 := by
    rw [abs_mul, abs_of_pos (show 0 < Real.log 2 by linarith)]
    refine mul_le_mul ?_ (by norm_num at *; linarith) (by linarith) (by norm_num)
    refine abs_le.2 ⟨?_, ?_⟩ <;> norm_num at * <;> linarith
  have g : |R b32 x * (R b32 0x3FB8AA3B * Real.log 2 - 1)| ≤ 710 * (1.4 / 10 ^ 8) := by
    rw [abs_mul]
    refine mul_le_mul hb ?_ (abs_nonneg _) (by norm_num)
    rw [k_log2ef.2]
    refine abs_le.2 ⟨?_, ?_⟩ <;> norm_num at * <;> linarith
  refine (abs_sub _ _).trans ?_
  norm_num at *
  linarith

theorem expm1_lower {X : ℝ} (h : 0.3464 ≤ |X|) : 0.28 * Real.exp X ≤ |Real.exp X - 1| := by
  rcases le_total 0 X with h0 | h0
  · rw [abs_of_nonneg h0] at h
    have h1 := Real.quadratic_le_exp_of_nonneg h0
    have h2 : 0.3464 ^ 2 ≤ X ^ 2 := pow_le_pow_left₀ (by norm_num) h 2
    refine le_trans ?_ (le_abs_self _)
    norm_num at *; linarith
  · rw [abs_of_nonpos h0] at h
    have h1 := Real.quadratic_le_exp_of_nonneg (x := -X) (by linarith)
    have h2 : 0.3464 ^ 2 ≤ (-X) ^ 2 := pow_le_pow_left₀ (by norm_num) h 2
    rw [Real.exp_neg] at h1
    have h3 := Real.exp_pos X
    have h4 : 1.4 ≤ (Real.exp X)⁻¹ := by norm_num at *; linarith
    have h5 : Real.exp X * 1.4 ≤ 1 := by
      have := mul_le_mul_of_nonneg_left h4 h3.le
      rwa [mul_inv_cancel₀ h3.ne'] at this
    rw [abs_of_nonpos (by norm_num at *; linarith)]
    norm_num at *; linarith

theorem expm1_small {X : ℝ} (h : |X| ≤ 0.35) : 0.82 * |X| ≤ |Real.exp X - 1| := by
  rcases le_total 0 X with h0 | h0
  · rw [abs_of_nonneg h0]
    have h1 := Real.add_one_le_exp X
    refine le_trans ?_ (le_abs_self _)
    norm_num; linarith
  · rw [abs_of_nonpos h0] at h ⊢
    have h1 := Real.quadratic_le_exp_of_nonneg (x := -X) (by linarith)
    rw [Real.exp_neg] at h1
    have h3 := Real.exp_pos X
    have h5 : Real.exp X * (1 + -X + (-X) ^ 2 / 2) ≤ 1 := by
      have := mul_le_mul_of_nonneg_left h1 h3.le
      rwa [mul_inv_cancel₀ h3.ne'] at this
    rw [abs_of_nonpos (by nlinarith)]
    nlinarith

theorem ln2_err (n : Int) (hn : |(n : ℝ)| ≤ 1025) : |(n : ℝ) * R b64 ln2 - n * Real.log 2| ≤ 2.4 / 10 ^ 14 := by
  rw [← mul_sub, abs_mul]
  have : |R b64 ln2 - Real.log 2| ≤ 2.32 / 10 ^ 17 := by
    have hL := abs_le.1 log_two_sharp
    rw [k_ln2.2]; refine abs_le.2 ⟨?_, ?_⟩ <;> norm_num at * <;> linarith
  refine (mul_le_mul hn this (abs_nonneg _) (by norm_num)).trans (by norm_num)

/-- `x - n * ln2` in `double`. -/
theorem reduced_ap {x N : Nat} {X : ℝ} {n : Int} (hx : Fin b64 x) (hX : R b64 x = X) (hN : Fin b64 N) (hn : R b64 N = n) (hn' : |(n : ℝ)| ≤ 1025)
    (hX' : |X| ≤ 710) (hs : |X - n * Real.log 2| ≤ 0.3468) : Ap (b64.sub x (b64.mul N ln2)) (X - n * Real.log 2) (1.1 / 10 ^ 13) := by
  have hL : |R b64 ln2| ≤ 0.6931472 := by rw [k_ln2.2]; norm_num [abs_of_pos]
  have hNA : Ap N n 0 := ⟨hN, by simp [hn]⟩
  have hXA : Ap x X 0 := ⟨hx, by simp [hX]⟩
  have m := hNA.mul (Ap.exact k_ln2.1) hn' hL (by norm_num)
  have m' := (m.mono (d := 7.9 / 10 ^ 14) (by norm_num)).shift (ln2_err n hn')
  have r := hXA.sub m' hs (by norm_num)
  exact r.mono (by norm_num)

theorem int_bound {X : ℝ} {n : Int} (hX : |X| ≤ 710) (hs : |X - n * Real.log 2| ≤ 0.3468) : |(n : ℝ)| ≤ 1025 := by
  obtain ⟨l1, l2⟩ := log_two_bounds
  have a := abs_le.1 hX
  have b := abs_le.1 hs
  refine abs_le.2 ⟨?_, ?_⟩
  · by_contra hc
    have := mul_lt_mul_of_pos_right (not_le.1 hc) (show 0 < Real.log 2 by linarith)
    norm_num at *; linarith
  · by_contra hc
    have := mul_lt_mul_of_pos_right (not_le.1 hc) (show 0 < Real.log 2 by linarith)
    norm_num at *; linarith

theorem k_expm1Min : Fin b64 0xC042B708872320E2 ∧ R b64 0xC042B708872320E2 = -(5267796835639522 / 2 ^ 47) := by
  exact_mod_cast lit_neg (x := 0xC042B708872320E2) (E := 1028) (m := 5267796835639522) (k := 47) (by norm_num) (by norm_num) (by norm_num) (by norm_num)

theorem k_expm1Max : Fin b64 0x40862E42FEFA39EF ∧ R b64 0x40862E42FEFA39EF = 6243314768165359 / 2 ^ 43 := by
  exact_mod_cast lit_pos (x := 0x40862E42FEFA39EF) (E := 1032) (m := 6243314768165359) (k := 43) (by norm_num) (by norm_num) (by norm_num) (by norm_num)

theorem k_f709 : Fin b32 0x44317218 ∧ R b32 0x44317218 = 709.78271484375 := by
  have := lit32 (x := 0x44317218) (m := 11629080) (k := 14) (s := false) (by decide) (by decide) (by decide +kernel)
  norm_num at this ⊢; exact this

theorem k_f709' : Fin b32 0x44317217 ∧ R b32 0x44317217 = 11629079 / 2 ^ 14 := by
  have := lit32 (x := 0x44317217) (m := 11629079) (k := 14) (s := false) (by decide) (by decide) (by decide +kernel)
  norm_num at this ⊢; exact this

/-- No float lies just below the limit. -/
theorem gap709 {x : Nat} (h : R b32 x ≤ 709.7827129) : R b32 x ≤ 709.78266 := by
  have h1 : R b32 x < R b32 0x44317218 := by rw [k_f709.2]; norm_num at *; linarith
  have h2 : R b32 x ≤ R b32 0x44317217 := by
    have hu : (0 : ℝ) < 2 ^ b32.unit := by positivity
    unfold R at h1 ⊢
    rw [div_lt_div_iff_of_pos_right hu] at h1
    rw [div_le_div_iff_of_pos_right hu]
    have h1' : b32.val x < b32.val 0x44317218 := by exact_mod_cast h1
    have : b32.val x ≤ b32.val 0x44317217 := by
      have e1 : b32.val 0x44317218 = b32.mag 0x44317218 := by decide +kernel
      have e2 : b32.val 0x44317217 = b32.mag 0x44317217 := by decide +kernel
      rw [e1] at h1'
      rw [e2]
      cases e : b32.neg x
      · have hv : b32.val x = b32.mag (b32.abs x) := by unfold Fmt.val; rw [e]; simp
        rw [hv] at h1' ⊢
        have : b32.abs x < 0x44317218 := Fmt.mag_lt_iff.1 (by exact_mod_cast h1')
        exact_mod_cast b32.mag_mono (show b32.abs x ≤ 0x44317217 by omega)
      · have hv : b32.val x = -b32.mag (b32.abs x) := by unfold Fmt.val; rw [e]; simp
        rw [hv]
        have : (0 : Int) ≤ b32.mag 0x44317217 := Int.natCast_nonneg _
        omega
    exact_mod_cast this
  rw [k_f709'.2] at h2
  norm_num at *; linarith

theorem rel_one : Rel one 1 0 := Rel.exact k_one.1 (by rw [k_one.2]; norm_num)

theorem fin_ne_zero {F : Fmt} {x : Nat} (h : R F x ≠ 0) : 1 / 2 ^ F.unit ≤ |R F x| := by
  have hu : (0 : ℝ) < 2 ^ F.unit := by positivity
  rw [abs_R]
  refine div_le_div_of_nonneg_right ?_ hu.le
  have : F.mag (F.abs x) ≠ 0 := by
    intro e
    apply h
    rw [R_signed, e]; simp
  have : 1 ≤ F.mag (F.abs x) := by omega
  exact_mod_cast this

/-- The result of `expm1f_` below the largest argument. -/
theorem expm1Wide_rel {x : Nat} (hx : Fin b32 x) (h0 : R b32 x ≠ 0) (h : R b32 x ≤ 709.78266) :
    ∃ y, expm1Wide x = some y ∧ Rel y (Real.exp (R b32 x) - 1) (1.1 / 10 ^ 12) := by
  obtain ⟨w1, w2, w3, -⟩ := wideR hx
  have hsm := fin_ne_zero h0
  rw [show b32.unit = 149 by rfl] at hsm
  unfold expm1Wide
  generalize hXe : R b32 x = X at *
  cases c1 : b64.lt (wide x) 0xC042B708872320E2
  swap
  · refine ⟨0xBFF0000000000000, by simp, fin_opp k_one.1, ?_⟩
    have e : R b64 0xBFF0000000000000 = -1 := by
      rw [show (0xBFF0000000000000 : Nat) = b64.opp one by decide, R_opp, k_one.2]; norm_num
    rw [e]
    have a := (lt_R w1 k_expm1Min.1).1 c1
    rw [w2, k_expm1Min.2] at a
    obtain ⟨l1, l2⟩ := log_two_bounds
    have h2 : X ≤ (-53 : Int) * Real.log 2 := by push_cast; norm_num at *; linarith
    have h3 := Real.exp_le_exp.2 h2
    rw [exp_pow, zpow_neg] at h3
    have h4 := Real.exp_pos X
    have h5 : Real.exp X ≤ 1 / 2 ^ 53 := h3.trans (by norm_num)
    rw [abs_of_nonpos (show -1 - (Real.exp X - 1) ≤ 0 by linarith), abs_of_nonpos (show Real.exp X - 1 ≤ 0 by norm_num at *; linarith)]
    norm_num at *; linarith
  have a1 := (lt_R w1 k_expm1Min.1).not.1 (by rw [c1]; simp)
  rw [w2, k_expm1Min.2] at a1
  have c2 : b64.lt 0x40862E42FEFA39EF (wide x) = false := by
    by_contra hc
    have b := (lt_R k_expm1Max.1 w1).1 (by simpa using hc)
    rw [w2, k_expm1Max.2] at b
    norm_num at *; linarith
  have hX : |X| ≤ 710 := abs_le.2 ⟨by norm_num at *; linarith, by norm_num at *; linarith⟩
  rw [c2]
  simp only [Bool.false_eq_true, if_false]
  obtain ⟨n, n1, n2, n3⟩ := reduce32 hx (by rw [hXe]; exact hX)
  rw [hXe] at n3
  generalize b32.add (b32.rint (b32.mul x 0x3FB8AA3B)) 0 = N at *
  obtain ⟨N1, N2, -, -⟩ := wideR n1
  have n3' : |X - n * Real.log 2| ≤ 0.3468 := n3.trans (by norm_num)
  have n4 := int_bound hX n3'
  have k0 : Fin b32 0 := by unfold Fin; decide
  have k1 : R b32 0 = 0 := by unfold R; rw [show b32.val 0 = 0 by decide]; simp
  obtain ⟨l1, l2⟩ := log_two_bounds
  by_cases hn : n = 0
  · rw [if_pos ((eq_R n1 k0).2 (by rw [n2, k1, hn]; simp))]
    refine ⟨_, rfl, ?_⟩
    have hNA : Ap (wide N) 0 0 := ⟨N1, by rw [N2, n2, hn]; simp⟩
    have hL : |R b64 ln2| ≤ 0.6931472 := by rw [k_ln2.2]; norm_num [abs_of_pos]
    have m := hNA.mul (Ap.exact k_ln2.1) (V := 0) (by simp) hL (by norm_num)
    rw [zero_mul] at m
    have hXA : Ap (wide x) X 0 := ⟨w1, by simp [w2]⟩
    have r := hXA.sub (m.mono (d := 1 / 2 ^ 250) (by norm_num)) (B := |X|) (by simp) (by norm_num at *; linarith)
    rw [sub_zero] at r
    have r' := r.mono (d := |X| * (1.2 / 10 ^ 16)) (by norm_num at *; linarith)
    rw [hn] at n3'
    push_cast at n3'
    rw [zero_mul, sub_zero] at n3'
    generalize b64.sub (wide x) (b64.mul (wide N) ln2) = a at *
    have ra := abs_le.1 r'.err
    have hXp := abs_nonneg X
    have ht : |R b64 a| ≤ 0.347 := (r'.abs_le n3').trans (by norm_num at *; linarith)
    have ht2 : |R b64 a| ≤ |X| * 1.0001 := (r'.abs_le le_rfl).trans (by norm_num at *; linarith)
    have k := kernelExp_ap r'.fin ht
    have hd := exp_near (a := R b64 a) (b := X) (r'.err.trans (by norm_num at *; linarith))
    have hX1 : Real.exp X ≤ 1.42 := (exp_range (n3'.trans (by norm_num))).2
    have hd2 : |Real.exp (R b64 a) - Real.exp X| ≤ |X| * (4 / 10 ^ 16) := by
      refine hd.trans ((mul_le_mul hX1 (mul_le_mul_of_nonneg_left r'.err (by norm_num)) (by positivity) (by norm_num)).trans ?_)
      norm_num at *; linarith
    have k' := k.shift (w := Real.exp X - 1) (d := |X| * (4 / 10 ^ 16)) (by
      rw [show Real.exp (R b64 a) - 1 - (Real.exp X - 1) = Real.exp (R b64 a) - Real.exp X by ring]; exact hd2)
    refine ⟨k'.fin, k'.err.trans ?_⟩
    have hlow := expm1_small (n3'.trans (by norm_num))
    have : |R b64 a| * (1.62 / 10 ^ 13) ≤ |X| * 1.0001 * (1.62 / 10 ^ 13) := mul_le_mul_of_nonneg_right ht2 (by norm_num)
    norm_num at *; linarith
  · have c3 : b32.eq N 0 = false := by
      by_contra hc
      have := (eq_R n1 k0).1 (by simpa using hc)
      rw [n2, k1] at this
      exact hn (by exact_mod_cast this)
    rw [c3]
    simp only [Bool.false_eq_true, if_false]
    have n5 := abs_le.1 n4
    have n6 : -1025 ≤ n ∧ n ≤ 1025 := ⟨by exact_mod_cast n5.1, by exact_mod_cast n5.2⟩
    rw [toInt_R n1 n2 (by omega), Option.bind_some]
    have ra := reduced_ap w1 w2 N1 (N2.trans n2) n4 hX n3'
    generalize b64.sub (wide x) (b64.mul (wide N) ln2) = a at *
    have hka := (exp_core ra (by norm_num) (n3'.trans (by norm_num))).1
    have hkf : Fin b64 (kernelExp a) := by
      refine (kernelExp_ap ra.fin ((ra.abs_le n3').trans (by norm_num))).fin
    rw [add_commR hkf k_one.1]
    have n7 : -1000 ≤ n := by
      by_contra hc
      have : n ≤ -1001 := by omega
      have : (n : ℝ) ≤ -1001 := by exact_mod_cast this
      have := mul_le_mul_of_nonneg_right this (show 0 ≤ Real.log 2 by linarith)
      have := (abs_le.1 n3').2
      norm_num at *; linarith
    obtain ⟨z, z1, z2, z3⟩ := exp_shift (X := X) ra (by norm_num) (by ring) (n3'.trans (by norm_num)) n7 h
    rw [z1, Option.map_some]
    refine ⟨_, rfl, ?_⟩
    have z4 := z2.mono (δ := 3.04 / 10 ^ 13) (by norm_num)
    have hE := Real.exp_pos X
    have hXl : 0.3464 ≤ |X| := by
      have hn1 : (1 : ℝ) ≤ |(n : ℝ)| := by rw [← Int.cast_abs]; exact_mod_cast Int.one_le_abs hn
      have h1 := abs_sub_abs_le_abs_sub ((n : ℝ) * Real.log 2) X
      rw [abs_sub_comm _ X, abs_mul, abs_of_pos (show 0 < Real.log 2 by linarith)] at h1
      have : 1 * Real.log 2 ≤ |(n : ℝ)| * Real.log 2 := mul_le_mul_of_nonneg_right hn1 (by linarith)
      norm_num at *; linarith
    have hlow := expm1_lower hXl
    have hM := exp_le_Mx h
    have hup : |Real.exp X - 1| ≤ Real.exp X + 1 := (abs_sub _ _).trans (by rw [abs_of_pos hE]; simp)
    have hone : Rel (b64.opp one) (-1) 0 := rel_one.opp
    have ez := z4.err
    rw [abs_of_pos hE] at ez
    refine Rel.add_abs z4.fin hone.fin ez (hone.err.trans (by simp)) (d := 0) (B := |Real.exp X - 1| + 3.04 / 10 ^ 13 * Real.exp X) (by rw [← sub_eq_add_neg]; simp) ?_ ?_
    · rcases le_total X 1 with hX1 | hX1
      · refine le_Mx ?_
        have : Real.exp X ≤ 3 := (Real.exp_le_exp.2 hX1).trans (Real.exp_one_lt_d9.le.trans (by norm_num))
        norm_num at *; linarith
      · have : 1 ≤ Real.exp X := Real.one_le_exp (by linarith)
        rw [abs_of_nonneg (by linarith)]
        norm_num at *; linarith
    · rw [← sub_eq_add_neg]
      norm_num at *; linarith

end Verif.Approx
