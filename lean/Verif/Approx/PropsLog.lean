import Verif.Approx.Props
import Verif.Approx.InvHypf

/-!
# C154 to C157: logarithms and inverse hyperbolic functions for `float`

As for the exponentials, every result at a positive finite argument, a subnormal one included, is the rounding of a number within a relative
error of `2^-35` of the exact value, or the correct rounding itself where the code stores it.
-/

namespace Verif.Approx
open Verif.Float Verif.Math.Spec Verif.Approx.Spec

theorem abs_real {p : Nat} (h : Math.Spec.Finite b32 p) : |real b32 p| = real b32 (absOf b32 p) := by
  rw [real_pat h, ← abs_of_nonneg (show 0 ≤ R b32 (absOf b32 p) by rw [← real_pat h]; unfold real value; rw [if_neg (by unfold negative absOf; exact Nat.not_le.2 (Nat.mod_lt _ (by decide)))]; positivity), abs_R,
    show b32.abs (absOf b32 p) = absOf b32 p from Nat.mod_eq_of_lt (Nat.mod_lt _ (by decide))]
  unfold real value size
  rw [abs_div, abs_of_pos (show (0 : ℝ) < 2 ^ b32.unit by positivity)]
  split <;> simp

/-- An accurate result is exact when the exact value is a float. -/
theorem accurate_float {k p r : Nat} {v : ℝ} (hk : 27 ≤ k) (ha : Accurate b32 (1 / 2 ^ k) v r) (hp : Pat b32 p) (hf : Math.Spec.Finite b32 p)
    (h : real b32 p = v) (h0 : v ≠ 0) : r = p := by
  have hε : (1 : ℝ) / 2 ^ k < 1 := by
    rw [div_lt_one (by positivity)]; exact one_lt_pow₀ (by norm_num) (by omega)
  obtain ⟨f1, f2⟩ := faithful32 (by omega) ha (absOf b32 p) hf
  rw [← abs_real hf, h] at f1 f2
  have e : absOf b32 r = absOf b32 p := Nat.le_antisymm (f2 le_rfl) (f1 le_rfl)
  have hu : (0 : ℝ) < 2 ^ b32.unit := by positivity
  have s : negative b32 r ↔ negative b32 p := by
    have hv : v = (value b32 p : ℝ) / 2 ^ b32.unit := h.symm
    by_cases hn : negative b32 p
    · refine ⟨fun _ => hn, fun _ => accurate_neg hε (lt_of_le_of_ne ?_ h0) ha⟩
      rw [hv, div_le_iff₀ hu, zero_mul]
      unfold value
      rw [if_pos hn]
      simp
    · refine ⟨fun h' => absurd h' (accurate_pos hε (lt_of_le_of_ne ?_ h0.symm) ha), fun h' => absurd h' hn⟩
      rw [hv, le_div_iff₀ hu, zero_mul]
      unfold value
      rw [if_neg hn]
      simp
  obtain ⟨z, -, hz⟩ := ha
  have hr := hz.pat
  unfold Pat at hr hp
  unfold negative at s
  unfold absOf at e
  rw [show b32.signBit = 0x80000000 from rfl] at *
  omega

/-! ### `logf` -/

/-- C154: `logf` is accurate at every positive finite argument, subnormal ones included; nothing inside is undefined. -/
theorem C154_logf {x : Nat} (h0 : 0 < x) (hx : x < b32.inf) :
    ∃ r, logf x = some r ∧ Accurate b32 (1 / 2 ^ 36) (Real.log (real b32 x)) r ∧ Faithful b32 (Real.log (real b32 x)) r := by
  obtain ⟨r, e, h⟩ := logf_finite h0 hx
  rw [R_eq (Nat.lt_trans hx (by decide))] at h
  exact ⟨r, e, h, faithful32 (by norm_num) h⟩

-- log 2, log 0.5, log of the smallest subnormal and of the largest float, the float above 1, a stored case
example : logf 0x40000000 = some 0x3F317218 ∧ logf 0x3F000000 = some 0xBF317218 ∧ logf 1 = some 0xC2CE8ED0 ∧ logf 0x7F7FFFFF = some 0x42B17218 ∧
    logf 0x3F800001 = some 0x33FFFFFF ∧ logf 0x4C5D65A5 = some 0x418F034B := by decide +kernel

/-- C154: `logf` is positive above 1, negative below 1 and +0 at 1. -/
theorem C154_logf_sign {x r : Nat} (h0 : 0 < x) (hx : x < b32.inf) (h : logf x = some r) :
    (1 < real b32 x → ¬ negative b32 r) ∧ (real b32 x < 1 → negative b32 r) ∧ logf 0x3F800000 = some 0 := by
  obtain ⟨r', e, ha, -⟩ := C154_logf h0 hx
  obtain rfl : r' = r := by rw [e] at h; exact Option.some.inj h
  obtain ⟨-, hp⟩ := R_pos h0 hx
  rw [R_eq (Nat.lt_trans hx (by decide))] at hp
  exact ⟨fun h1 => accurate_pos (by norm_num) (Real.log_pos h1) ha, fun h1 => accurate_neg (by norm_num) (Real.log_neg hp h1) ha, by decide +kernel⟩

theorem s32_neg {x : Nat} (hp : Pat b32 x) (hn : negative b32 x) : s32 x = (x : Int) - 2 ^ 32 ∧ 0x80000000 ≤ x ∧ x < 2 ^ 32 := by
  have h1 : b32.signBit = 0x80000000 := rfl
  unfold Pat at hp
  unfold negative at hn
  rw [h1] at hp hn
  unfold s32
  omega

theorem log_specials {x : Nat} (hp : Pat b32 x) :
    (Zero b32 x → s32 x ≤ 0 ∧ u32 (2 * s32 x) = 0) ∧ (negative b32 x → ¬ Zero b32 x → s32 x ≤ 0 ∧ u32 (2 * s32 x) ≠ 0) ∧
      (¬ negative b32 x → b32.inf ≤ x → ¬ s32 x ≤ 0 ∧ 0x7F800000 ≤ s32 x) := by
  have h1 : b32.signBit = 0x80000000 := rfl
  have h2 : b32.inf = 0x7F800000 := rfl
  unfold Pat at hp
  unfold negative Math.Spec.Zero absOf s32 u32
  rw [h1] at hp ⊢
  rw [h2]
  omega

theorem nan_split {x : Nat} (hp : Pat b32 x) (hn : NaN b32 x) : (negative b32 x ∧ ¬ Zero b32 x) ∨ (¬ negative b32 x ∧ b32.inf ≤ x) := by
  have h1 : b32.signBit = 0x80000000 := rfl
  have h2 : b32.inf = 0x7F800000 := rfl
  unfold Pat at hp
  unfold NaN absOf at hn
  unfold negative Math.Spec.Zero absOf
  rw [h1] at hp hn ⊢
  rw [h2] at hn ⊢
  omega

/-- C154: `logf` is minus infinity at both zeros, NaN at negative numbers and NaN, infinite at infinity; all this is defined. -/
theorem C154_logf_special {x : Nat} (hp : Pat b32 x) :
    (Zero b32 x → logf x = some 0xFF800000) ∧ (negative b32 x → ¬ Zero b32 x → logf x = some 0x7FC00000) ∧ (x = b32.inf → logf x = some x) ∧
      (NaN b32 x → ∃ r, logf x = some r ∧ NaN b32 r) := by
  obtain ⟨s1, s2, s3⟩ := log_specials hp
  have neg : negative b32 x → ¬ Zero b32 x → logf x = some 0x7FC00000 := fun h h' => by
    obtain ⟨a, b⟩ := s2 h h'; unfold logf; rw [if_pos a, if_neg b]; rfl
  have big : ¬ negative b32 x → b32.inf ≤ x → logf x = some x := fun h h' => by
    obtain ⟨a, b⟩ := s3 h h'; unfold logf; rw [if_neg a, if_pos b]
  refine ⟨fun h => ?_, neg, fun h => big (by rw [h]; decide) (le_of_eq h.symm), fun h => ?_⟩
  · obtain ⟨a, b⟩ := s1 h; unfold logf; rw [if_pos a, if_pos b]; rfl
  · rcases nan_split hp h with ⟨a, b⟩ | ⟨a, b⟩
    · exact ⟨_, neg a b, by unfold NaN; decide⟩
    · exact ⟨_, big a b, h⟩

example : logf 0x80000000 = some 0xFF800000 ∧ logf 0xBF800000 = some 0x7FC00000 ∧ logf 0xFF800000 = some 0x7FC00000 ∧ logf 0x80000001 = some 0x7FC00000 := by
  decide +kernel

/-! ### `log2f` and `log10f` -/

/-- C155: `log2f` is accurate at every positive finite argument. -/
theorem C155_log2f {x : Nat} (h0 : 0 < x) (hx : x < b32.inf) :
    ∃ r, log2f x = some r ∧ Accurate b32 (1 / 2 ^ 36) (Real.logb 2 (real b32 x)) r ∧ Faithful b32 (Real.logb 2 (real b32 x)) r := by
  obtain ⟨r, e, h⟩ := log2f_finite h0 hx
  rw [R_eq (Nat.lt_trans hx (by decide))] at h
  exact ⟨r, e, h, faithful32 (by norm_num) h⟩

/-- C155: `log10f` is accurate at every positive finite argument. -/
theorem C155_log10f {x : Nat} (h0 : 0 < x) (hx : x < b32.inf) :
    ∃ r, log10f x = some r ∧ Accurate b32 (1 / 2 ^ 36) (Real.logb 10 (real b32 x)) r ∧ Faithful b32 (Real.logb 10 (real b32 x)) r := by
  obtain ⟨r, e, h⟩ := log10f_finite h0 hx
  rw [R_eq (Nat.lt_trans hx (by decide))] at h
  exact ⟨r, e, h, faithful32 (by norm_num) h⟩

-- of 10, of the smallest subnormal, of the float below 1
example : log2f 0x41200000 = some 0x40549A78 ∧ log2f 3 = some 0xC3136A40 ∧ log2f 0x3F7FFFFF = some 0xB3B8AA3C ∧
    log10f 0x40000000 = some 0x3E9A209B ∧ log10f 1 = some 0xC23369F4 ∧ log10f 0x3F7FFFFF = some 0xB2DE5BD9 := by decide +kernel

/-- C155: `log2f` and `log10f` are exact whenever the logarithm is a float: at the powers of 2, and at those of 10 that are floats. -/
theorem C155_exact {x p : Nat} (h0 : 0 < x) (hx : x < b32.inf) (hp : Pat b32 p) (hf : Math.Spec.Finite b32 p) (hz : real b32 p ≠ 0) :
    (real b32 p = Real.logb 2 (real b32 x) → log2f x = some p) ∧ (real b32 p = Real.logb 10 (real b32 x) → log10f x = some p) := by
  refine ⟨fun h => ?_, fun h => ?_⟩
  · obtain ⟨r, e, ha, -⟩ := C155_log2f h0 hx
    rw [e, accurate_float (by norm_num) ha hp hf h (h ▸ hz)]
  · obtain ⟨r, e, ha, -⟩ := C155_log10f h0 hx
    rw [e, accurate_float (by norm_num) ha hp hf h (h ▸ hz)]

-- 2^-149, 2^127; 10^10
example : log2f 1 = some 0xC3150000 ∧ log2f 0x7F000000 = some 0x42FE0000 ∧ log10f 0x501502F9 = some 0x41200000 := by decide +kernel
example : real b32 0x40400000 = Real.logb 2 (real b32 0x41000000) := by
  rw [real_lit (m := 3) (k := 0) (s := false) (by decide) (by decide) (by decide +kernel),
    real_lit (x := 0x41000000) (m := 8) (k := 0) (s := false) (by decide) (by decide) (by decide +kernel), eq_comm, Real.logb_eq_iff_rpow_eq] <;> norm_num
example : real b32 0x40400000 = Real.logb 10 (real b32 0x447A0000) := by
  rw [real_lit (m := 3) (k := 0) (s := false) (by decide) (by decide) (by decide +kernel),
    real_lit (x := 0x447A0000) (m := 1000) (k := 0) (s := false) (by decide) (by decide) (by decide +kernel), eq_comm, Real.logb_eq_iff_rpow_eq] <;> norm_num

/-- C155: both are positive above 1, negative below 1 and +0 at 1. -/
theorem C155_sign {x r s : Nat} (h0 : 0 < x) (hx : x < b32.inf) (hr : log2f x = some r) (hs : log10f x = some s) :
    (1 < real b32 x → ¬ negative b32 r ∧ ¬ negative b32 s) ∧ (real b32 x < 1 → negative b32 r ∧ negative b32 s) ∧
      log2f 0x3F800000 = some 0 ∧ log10f 0x3F800000 = some 0 := by
  obtain ⟨r', e, ha, -⟩ := C155_log2f h0 hx
  obtain rfl : r' = r := by rw [e] at hr; exact Option.some.inj hr
  obtain ⟨s', e', hb, -⟩ := C155_log10f h0 hx
  obtain rfl : s' = s := by rw [e'] at hs; exact Option.some.inj hs
  obtain ⟨-, hp⟩ := R_pos h0 hx
  rw [R_eq (Nat.lt_trans hx (by decide))] at hp
  exact ⟨fun h1 => ⟨accurate_pos (by norm_num) (Real.logb_pos (by norm_num) h1) ha, accurate_pos (by norm_num) (Real.logb_pos (by norm_num) h1) hb⟩,
    fun h1 => ⟨accurate_neg (by norm_num) (Real.logb_neg (by norm_num) hp h1) ha, accurate_neg (by norm_num) (Real.logb_neg (by norm_num) hp h1) hb⟩,
    by decide +kernel⟩

/-- C155: special values of both. -/
theorem C155_special {x : Nat} (hp : Pat b32 x) :
    (Zero b32 x → log2f x = some 0xFF800000 ∧ log10f x = some 0xFF800000) ∧
      (negative b32 x → ¬ Zero b32 x → log2f x = some 0x7FC00000 ∧ log10f x = some 0x7FC00000) ∧
      (x = b32.inf → log2f x = some x ∧ log10f x = some x) ∧
      (NaN b32 x → (∃ r, log2f x = some r ∧ NaN b32 r) ∧ ∃ r, log10f x = some r ∧ NaN b32 r) := by
  obtain ⟨s1, s2, s3⟩ := log_specials hp
  have neg : negative b32 x → ¬ Zero b32 x → log2f x = some 0x7FC00000 ∧ log10f x = some 0x7FC00000 := fun h h' => by
    obtain ⟨a, b⟩ := s2 h h'
    unfold log2f log10f
    rw [if_pos a, if_pos a, if_neg b]
    exact ⟨rfl, rfl⟩
  have big : ¬ negative b32 x → b32.inf ≤ x → log2f x = some x ∧ log10f x = some x := fun h h' => by
    obtain ⟨a, b⟩ := s3 h h'
    unfold log2f log10f
    rw [if_neg a, if_neg a, if_neg (by omega), if_pos b]
    exact ⟨rfl, rfl⟩
  refine ⟨fun h => ?_, neg, fun h => big (by rw [h]; decide) (le_of_eq h.symm), fun h => ?_⟩
  · obtain ⟨a, b⟩ := s1 h
    unfold log2f log10f
    rw [if_pos a, if_pos a, if_pos b]
    exact ⟨rfl, rfl⟩
  · rcases nan_split hp h with ⟨a, b⟩ | ⟨a, b⟩
    · exact ⟨⟨_, (neg a b).1, by unfold NaN; decide⟩, ⟨_, (neg a b).2, by unfold NaN; decide⟩⟩
    · exact ⟨⟨_, (big a b).1, h⟩, ⟨_, (big a b).2, h⟩⟩

/-! ### `log1pf` -/

/-- C156: `log1pf` is accurate at every finite argument above -1, also where `1 + x` rounds to 1. -/
theorem C156_log1pf {x : Nat} (hp : Pat b32 x) (hx : Math.Spec.Finite b32 x) (h : -1 < real b32 x) :
    Accurate b32 (1 / 2 ^ 35) (Real.log (1 + real b32 x)) (log1pf x) ∧ Faithful b32 (Real.log (1 + real b32 x)) (log1pf x) := by
  rw [← R_eq hp] at h
  have k := log1pf_finite hp hx h
  rw [R_eq hp] at k
  exact ⟨k, faithful32 (by norm_num) k⟩

-- at 1, at the float above -1, at a subnormal number, at the largest float, at a stored case
example : Pat b32 0xBF7FFFFF ∧ Math.Spec.Finite b32 0xBF7FFFFF ∧ log1pf 0xBF7FFFFF = 0xC1851592 ∧ log1pf 0x3F800000 = 0x3F317218 ∧
    log1pf 0x80000003 = 0x80000003 ∧ log1pf 0x7F7FFFFF = 0x42B17218 ∧ log1pf 0xBB0EC8C4 = 0xBB0EF0A5 := by
  unfold Pat Math.Spec.Finite; decide +kernel
example : -1 < real b32 0xBF7FFFFF := by
  rw [real_lit (x := 0xBF7FFFFF) (m := 16777215) (k := 24) (s := true) (by decide) (by decide) (by decide +kernel)]
  norm_num

/-- C156: `log1pf` has the sign of its argument. -/
theorem C156_log1pf_sign {x : Nat} (hp : Pat b32 x) (hx : Math.Spec.Finite b32 x) (h : -1 < real b32 x) :
    (0 < real b32 x → ¬ negative b32 (log1pf x)) ∧ (real b32 x < 0 → negative b32 (log1pf x)) := by
  obtain ⟨ha, -⟩ := C156_log1pf hp hx h
  exact ⟨fun h0 => accurate_pos (by norm_num) (Real.log_pos (by linarith)) ha, fun h0 => accurate_neg (by norm_num) (Real.log_neg (by linarith) (by linarith)) ha⟩

/-- C156: `log1pf` keeps zeros, is minus infinity at -1, NaN below and at NaN, infinite at infinity. -/
theorem C156_log1pf_special {x : Nat} (hp : Pat b32 x) :
    (Math.Spec.Zero b32 x → log1pf x = x) ∧ (x = 0xBF800000 → log1pf x = 0xFF800000) ∧ (0xBF800000 < x → log1pf x = 0x7FC00000) ∧
      (x = b32.inf → log1pf x = x) ∧ (NaN b32 x → NaN b32 (log1pf x)) := by
  have h1 : b32.signBit = 0x80000000 := rfl
  have h2 : b32.inf = 0x7F800000 := rfl
  have hp' : x < 2 ^ 32 := hp
  have low : 0xBF800000 < x → log1pf x = 0x7FC00000 := fun h => by
    unfold log1pf; rw [if_neg (by omega), if_pos h]; rfl
  have big : b32.inf ≤ x → x < 0x80000000 → log1pf x = x := fun h h' => by
    unfold log1pf; rw [if_neg (by omega), if_neg (by omega), if_pos (by unfold s32; omega)]
  refine ⟨fun h => ?_, fun h => by subst h; decide +kernel, low, fun h => by subst h; decide +kernel, fun h => ?_⟩
  · have : x = 0 ∨ x = 0x80000000 := by unfold Math.Spec.Zero absOf at h; rw [h1] at h; omega
    rcases this with rfl | rfl <;> decide +kernel
  · have hn := h
    unfold NaN absOf at h
    rw [h1, h2] at h
    rcases Nat.lt_or_ge x 0x80000000 with hc | hc
    · rw [big (by omega) hc]; exact hn
    · rw [low (by omega)]; unfold NaN; decide

/-! ### Inverse hyperbolic functions -/

/-- C157: `asinhf` is accurate at every finite argument. -/
theorem C157_asinhf {x : Nat} (hp : Pat b32 x) (hx : Math.Spec.Finite b32 x) :
    Accurate b32 (1 / 2 ^ 35) (Real.arsinh (real b32 x)) (asinhf x) ∧ Faithful b32 (Real.arsinh (real b32 x)) (asinhf x) := by
  have k := asinhf_finite hp hx
  rw [R_eq hp] at k
  exact ⟨k, faithful32 (by norm_num) k⟩

example : Pat b32 0xBF800000 ∧ Math.Spec.Finite b32 0xBF800000 ∧ asinhf 0xBF800000 = 0xBF61A1B3 ∧ asinhf 0x00000001 = 0x00000001 ∧
    asinhf 0x7F7FFFFF = 0x42B2D4FC ∧ asinhf 0xCBDD65A5 = 0xC18F034B := by
  unfold Pat Math.Spec.Finite; decide +kernel

/-- C157: `acoshf` is accurate at every finite argument not below 1. -/
theorem C157_acoshf {x : Nat} (hx : x < b32.inf) (h : 1 ≤ real b32 x) :
    Accurate b32 (1 / 2 ^ 35) (Real.arcosh (real b32 x)) (acoshf x) ∧ Faithful b32 (Real.arcosh (real b32 x)) (acoshf x) := by
  have hp : Pat b32 x := Nat.lt_trans hx (by decide)
  have h1 : 0x3F800000 ≤ x := by
    by_contra hc
    have a := R32_mono (show x ≤ 0x3F7FFFFF by omega) (by decide)
    rw [(lit32 (x := 0x3F7FFFFF) (m := 16777215) (k := 24) (s := false) (by decide) (by decide) (by decide +kernel)).2, R_eq hp] at a
    norm_num at a
    linarith
  have k := acoshf_finite h1 hx
  rw [R_eq hp] at k
  exact ⟨k, faithful32 (by norm_num) k⟩

example : acoshf 0x3F800000 = 0 ∧ acoshf 0x3F800001 = 0x3A000000 ∧ acoshf 0x40000000 = 0x3FA89214 ∧ acoshf 0x7F7FFFFF = 0x42B2D4FC ∧ 1 ≤ real b32 0x40000000 := by
  refine ⟨by decide +kernel, by decide +kernel, by decide +kernel, by decide +kernel, ?_⟩
  rw [real_lit (x := 0x40000000) (m := 2) (k := 0) (s := false) (by decide) (by decide) (by decide +kernel)]
  norm_num

/-- C157: `atanhf` is accurate at every argument between -1 and 1. -/
theorem C157_atanhf {x : Nat} (hp : Pat b32 x) (hx : Math.Spec.Finite b32 x) (h : |real b32 x| < 1) :
    Accurate b32 (1 / 2 ^ 35) (Real.artanh (real b32 x)) (atanhf x) ∧ Faithful b32 (Real.artanh (real b32 x)) (atanhf x) := by
  rw [← R_eq hp] at h
  have k := atanhf_finite hx h
  rw [R_eq hp] at k
  exact ⟨k, faithful32 (by norm_num) k⟩

example : Pat b32 0xBF7FFFFF ∧ Math.Spec.Finite b32 0xBF7FFFFF ∧ atanhf 0xBF7FFFFF = 0xC10AA123 ∧ atanhf 0x3F000000 = 0x3F0C9F54 ∧ atanhf 0x80000001 = 0x80000001 := by
  unfold Pat Math.Spec.Finite; decide +kernel
example : |real b32 0xBF7FFFFF| < 1 := by
  rw [real_lit (x := 0xBF7FFFFF) (m := 16777215) (k := 24) (s := true) (by decide) (by decide) (by decide +kernel)]
  norm_num [abs_of_neg]

/-- C157: signs.  `acoshf` is not negative above 1. -/
theorem C157_sign {x : Nat} (hp : Pat b32 x) (hx : Math.Spec.Finite b32 x) :
    (0 < real b32 x → ¬ negative b32 (asinhf x)) ∧ (real b32 x < 0 → negative b32 (asinhf x)) ∧
      (1 < real b32 x → x < b32.inf → ¬ negative b32 (acoshf x)) ∧
      (|real b32 x| < 1 → (0 < real b32 x → ¬ negative b32 (atanhf x)) ∧ (real b32 x < 0 → negative b32 (atanhf x))) := by
  obtain ⟨ha, -⟩ := C157_asinhf hp hx
  refine ⟨fun h => accurate_pos (by norm_num) (Real.arsinh_pos_iff.2 h) ha, fun h => accurate_neg (by norm_num) (Real.arsinh_neg_iff.2 h) ha,
    fun h h' => accurate_pos (by norm_num) (Real.arcosh_pos h) (C157_acoshf h' h.le).1, fun h => ?_⟩
  obtain ⟨hb, -⟩ := C157_atanhf hp hx h
  have hl := abs_lt.1 h
  exact ⟨fun h0 => accurate_pos (by norm_num) (Real.artanh_pos ⟨h0, hl.2⟩) hb, fun h0 => accurate_neg (by norm_num) (Real.artanh_neg ⟨hl.1, h0⟩) hb⟩

/-- C157: values at zeros, infinities, NaN and outside the domains. -/
theorem C157_special {x : Nat} (hp : Pat b32 x) :
    (Math.Spec.Zero b32 x → asinhf x = x ∧ atanhf x = x) ∧ (Infinite b32 x → asinhf x = x) ∧ (x = b32.inf → acoshf x = x) ∧
      (x < 0x3F800000 ∨ negative b32 x → acoshf x = 0x7FC00000) ∧ (absOf b32 x = 0x3F800000 → atanhf x = b32.copysign b32.inf x) ∧
      (0x3F800000 < absOf b32 x → atanhf x = 0x7FC00000) ∧ (NaN b32 x → NaN b32 (asinhf x) ∧ NaN b32 (acoshf x) ∧ NaN b32 (atanhf x)) := by
  have h1 : b32.signBit = 0x80000000 := rfl
  have h2 : b32.inf = 0x7F800000 := rfl
  have hp' : x < 2 ^ 32 := hp
  have low : x < 0x3F800000 ∨ negative b32 x → acoshf x = 0x7FC00000 := fun h => by
    unfold acoshf; rw [if_pos (by unfold negative at h; rw [h1] at h; unfold s32; omega)]; rfl
  have out : 0x3F800000 < absOf b32 x → atanhf x = 0x7FC00000 := fun h => by
    have ha : b32.abs x = absOf b32 x := rfl
    unfold atanhf
    rw [ha]
    have hlt : absOf b32 x < 0x80000000 := Nat.mod_lt _ (by decide)
    generalize absOf b32 x = a at *
    have hab : b32.abs a = a := Nat.mod_eq_of_lt hlt
    by_cases hn : a ≤ b32.inf
    · have c1 : b32.eq a 0x3F800000 = false := by
        rw [Bool.eq_false_iff]; intro e
        rw [Fmt.eq_iff (by rw [hab]; exact hn) (by decide)] at e
        have m := b32.mag_strictMono h
        unfold Fmt.val at e
        rw [show b32.neg a = false from Fmt.neg_of_lt hlt, show b32.neg 0x3F800000 = false by decide, hab, show b32.abs 0x3F800000 = 0x3F800000 by decide] at e
        simp only [Bool.false_eq_true, if_false] at e
        omega
      have c2 : b32.lt a 0x3F800000 = false := by
        rw [Bool.eq_false_iff]; intro e
        rw [Fmt.lt_iff (by rw [hab]; exact hn) (by decide)] at e
        have m := b32.mag_strictMono h
        unfold Fmt.val at e
        rw [show b32.neg a = false from Fmt.neg_of_lt hlt, show b32.neg 0x3F800000 = false by decide, hab, show b32.abs 0x3F800000 = 0x3F800000 by decide] at e
        simp only [Bool.false_eq_true, if_false] at e
        omega
      simp only [c1, c2, Bool.false_eq_true, if_false]
      rfl
    · have nn : b32.isNaN a = true := by rw [Fmt.isNaN_iff, hab]; omega
      have c1 : b32.eq a 0x3F800000 = false := by unfold Fmt.eq; simp [nn]
      have c2 : b32.lt a 0x3F800000 = false := by unfold Fmt.lt; simp [nn]
      simp only [c1, c2, Bool.false_eq_true, if_false]
      rfl
  refine ⟨fun h => ?_, fun h => ?_, fun h => by subst h; decide +kernel, low, fun h => ?_, out, fun h => ⟨?_, ?_, ?_⟩⟩
  · have : x = 0 ∨ x = 0x80000000 := by unfold Math.Spec.Zero absOf at h; rw [h1] at h; omega
    rcases this with rfl | rfl <;> decide +kernel
  · have : x = 0x7F800000 ∨ x = 0xFF800000 := by unfold Math.Spec.Infinite absOf at h; rw [h1, h2] at h; omega
    rcases this with rfl | rfl <;> decide +kernel
  · have : x = 0x3F800000 ∨ x = 0xBF800000 := by unfold absOf at h; rw [h1] at h; omega
    rcases this with rfl | rfl <;> decide +kernel
  · have nn : b32.isNaN x = true := by rw [Fmt.isNaN_iff]; exact h
    have hs : b32.isNaN (b32.sub x x) = true := by
      unfold Fmt.sub Fmt.add
      simp only [nn, true_or, if_true]
      decide
    have c : b32.eq (b32.sub x x) 0 = false := by unfold Fmt.eq; simp [hs]
    unfold asinhf
    simp only [c, Bool.false_eq_true, not_false_eq_true, if_true]
    exact h
  · rcases nan_split hp h with ⟨a, b⟩ | ⟨a, b⟩
    · rw [low (Or.inr a)]; unfold NaN; decide
    · have : acoshf x = x := by
        unfold negative at a
        rw [h1] at a
        rw [h2] at b
        unfold acoshf
        rw [if_neg (by unfold s32; omega), if_pos (by unfold s32; omega)]
      rw [this]; exact h
  · rw [out (by unfold NaN at h; rw [h2] at h; omega)]; unfold NaN; decide

end Verif.Approx
