import Verif.Approx.PropsLog
import Verif.Approx.Cbrt

/-!
# C158: cube roots for `float`

The cube root of `v` is specified as the real number whose cube is `v`.
-/

namespace Verif.Approx
open Verif.Float Verif.Math.Spec Verif.Approx.Spec

/-- C158: `cbrtf` is accurate at every finite argument, subnormal ones included, and nothing inside is undefined. -/
theorem C158_cbrtf {x : Nat} (hp : Pat b32 x) (hx : Math.Spec.Finite b32 x) {c : ℝ} (hc : c ^ 3 = real b32 x) :
    ∃ r, cbrtf x = some r ∧ Accurate b32 (1 / 2 ^ 45) c r ∧ Faithful b32 c r := by
  suffices h : ∃ r, cbrtf x = some r ∧ Accurate b32 (1 / 2 ^ 45) c r by
    obtain ⟨r, h1, h2⟩ := h
    exact ⟨r, h1, h2, faithful32 (by norm_num) h2⟩
  rw [← R_eq hp] at hc
  by_cases h0 : R b32 x = 0
  · have e : c = 0 := by rw [h0] at hc; exact pow_eq_zero_iff (by norm_num) |>.1 hc
    rw [e]
    rcases zero_cases hp h0 with rfl | rfl
    · exact ⟨0, by decide +kernel, 0, by simp, rounded_zero' (by unfold Pat; decide) (by decide) (by decide)⟩
    · exact ⟨0x80000000, by decide +kernel, 0, by simp, rounded_zero' (by unfold Pat; decide) (by decide) (by decide)⟩
  · have hx' : b32.abs x < b32.inf := hx
    have ha : 0 < b32.abs x := by
      rcases Nat.eq_zero_or_pos (b32.abs x) with h | h
      · have := (fabs_R (x := x) hx).2
        rw [h, (R32_pat (by decide)).2, b32.mag_zero] at this
        simp at this
        exact absurd this.symm (abs_ne_zero.2 h0)
      · exact h
    have hcube : |c| ^ 3 = R b32 (b32.abs x) := by rw [(fabs_R hx).2, ← hc, abs_pow]
    obtain ⟨r, r1, r2⟩ := cbrt_pos ha hx' hcube
    have hc0 : 0 < |c| := by
      refine abs_pos.2 fun h => h0 ?_
      rw [← hc, h]; norm_num
    refine ⟨b32.copysign r x, by unfold cbrtf; rw [r1]; rfl, ?_⟩
    have k := accurate_sign r2 hc0 (by norm_num) (b32.neg x)
    have e : c = (if b32.neg x then -1 else 1) * |c| := by
      have h3 : 0 < |c| ^ 3 := by positivity
      have hs := R_sign (F := b32) x
      rw [← hc, abs_pow] at hs
      cases hn : b32.neg x
      · rw [hn] at hs
        simp only [Bool.false_eq_true, if_false, one_mul] at hs ⊢
        refine (abs_of_nonneg ?_).symm
        by_contra h
        have : c ^ 3 < 0 := by
          have := mul_neg_of_neg_of_pos (not_le.1 h) (show 0 < c ^ 2 by have := sq_abs c; nlinarith)
          nlinarith
        linarith
      · rw [hn] at hs
        simp only [if_true] at hs ⊢
        rw [abs_of_nonpos, neg_one_mul, neg_neg]
        by_contra h
        have : 0 < c ^ 3 := by have := not_le.1 h; positivity
        linarith
    rw [e]
    exact k

/-- The number of a float without sign, for examples. -/
theorem real_27 : real b32 0xC1D80000 = -27 := by
  rw [real_lit (x := 0xC1D80000) (m := 27) (k := 0) (s := true) (by decide) (by decide) (by decide +kernel)]
  norm_num

-- the cube root of -27 is -3; of 2, of the smallest subnormal and of the largest float
example : Pat b32 0xC1D80000 ∧ Math.Spec.Finite b32 0xC1D80000 ∧ (-3 : ℝ) ^ 3 = real b32 0xC1D80000 ∧ cbrtf 0xC1D80000 = some 0xC0400000 ∧
    cbrtf 0x40000000 = some 0x3FA14518 ∧ cbrtf 1 = some 0x26A14518 ∧ cbrtf 0x7F7FFFFF = some 0x54CB2FF5 := by
  refine ⟨by unfold Pat; decide, by unfold Math.Spec.Finite; decide, by rw [real_27]; norm_num, ?_⟩
  decide +kernel

/-- C158: the cube root of a cube is exact. -/
theorem C158_exact {x p : Nat} (hp : Pat b32 x) (hx : Math.Spec.Finite b32 x) (hp' : Pat b32 p) (hf : Math.Spec.Finite b32 p)
    (h : real b32 p ^ 3 = real b32 x) (h0 : real b32 x ≠ 0) : cbrtf x = some p := by
  obtain ⟨r, r1, r2, -⟩ := C158_cbrtf hp hx h
  rw [r1, accurate_float (by norm_num) r2 hp' hf rfl (by intro e; rw [e] at h; exact h0 (by rw [← h]; norm_num))]

/-- C158: `cbrtf` is odd, for every pattern. -/
theorem C158_odd (x : Nat) : cbrtf (b32.opp x) = (cbrtf x).map b32.opp := by
  unfold cbrtf
  rw [Fmt.abs_opp, Option.map_map]
  congr 1
  funext r
  unfold Function.comp Fmt.copysign
  have hs : b32.abs r < b32.signBit := Nat.mod_lt _ (by decide)
  rw [show b32.opp x = b32.pack (!b32.neg x) (b32.abs x) from rfl, Fmt.neg_pack (show b32.abs x < b32.signBit from Nat.mod_lt _ (by decide))]
  simp only [Fmt.opp]
  rw [Fmt.neg_pack hs, Fmt.abs_pack hs]

/-- C158: zeros, infinities and NaN are returned. -/
theorem C158_special {x : Nat} (hp : Pat b32 x) (h : Zero b32 x ∨ Infinite b32 x ∨ NaN b32 x) : cbrtf x = some x := by
  have h1 : b32.signBit = 0x80000000 := rfl
  have h2 : b32.inf = 0x7F800000 := rfl
  have ha : b32.abs x = x % 0x80000000 := rfl
  have hp' : x < 2 ^ 32 := hp
  have k : cbrtKernel (b32.abs x) = some (b32.abs x) := by
    unfold cbrtKernel
    rw [if_pos]
    unfold Math.Spec.Zero Math.Spec.Infinite NaN absOf at h
    rw [h1, h2] at h
    rw [ha]
    unfold s32
    omega
  unfold cbrtf
  rw [k]
  simp only [Option.map_some]
  congr 1
  unfold Fmt.copysign Fmt.pack Fmt.neg
  rw [h1, show b32.abs (b32.abs x) = x % 0x80000000 % 0x80000000 from rfl]
  by_cases hc : x / 0x80000000 % 2 = 1
  · simp only [hc, decide_true, if_true]; omega
  · simp only [hc, decide_false, Bool.false_eq_true, if_false]; omega

example : cbrtf 0xFF800000 = some 0xFF800000 ∧ cbrtf 0x80000000 = some 0x80000000 ∧ Infinite b32 0xFF800000 := by unfold Math.Spec.Infinite; decide +kernel

end Verif.Approx
