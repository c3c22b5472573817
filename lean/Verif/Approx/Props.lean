import Verif.Approx.Exp2f
import Verif.Approx.Hyper
import Verif.Approx.Bound

/-!
# C150 to C153: exponentials and hyperbolic functions for `float`

Every result at a finite argument is the rounding of a real number that differs from the exact value by a relative error of at most
`2^-38` or less, far below the spacing `2^-24` of floats.  So it is one of the two floats around the exact value, and the nearest one unless
the exact value is that close to a midpoint.
-/

namespace Verif.Approx
open Verif.Float Verif.Math.Spec Verif.Approx.Spec

theorem faithful32 {k : Nat} {v : ℝ} {r : Nat} (hk : 26 ≤ k) (h : Accurate b32 (1 / 2 ^ k) v r) : Faithful b32 v r := by
  refine accurate_faithful ?_ (by positivity) h
  rw [show b32.f + 3 = 26 by rfl]
  exact one_div_le_one_div_of_le (by positivity) (pow_le_pow_right₀ (by norm_num) hk)

theorem real_lit {x m k : Nat} {s : Bool} (h : x = b32.pack s (b32.abs x)) (hf : b32.abs x < b32.inf) (hm : b32.mag (b32.abs x) * 2 ^ k = m * 2 ^ b32.unit) :
    real b32 x = (if s then -1 else 1) * ((m : ℝ) / 2 ^ k) := by
  rw [← R_eq, (lit32 h hf hm).2]
  rw [h]; exact Math.pat_pack (Nat.le_of_lt hf)

theorem real_one : real b32 0x3F800000 = 1 := by
  rw [real_lit (m := 1) (k := 0) (s := false) (by decide) (by decide) (by decide +kernel)]; simp

theorem not_negative_le {r : Nat} (hp : Pat b32 r) (h : ¬ negative b32 r) : absOf b32 r = r := by
  unfold negative at h; unfold absOf; exact Nat.mod_eq_of_lt (by omega)

theorem tanh_pos {v : ℝ} (h : 0 < v) : 0 < Real.tanh v := by
  rw [Real.tanh_eq_sinh_div_cosh]; exact div_pos (Real.sinh_pos_iff.2 h) (Real.cosh_pos _)

/-! ### `expf` -/

/-- C150: `expf` is accurate at every finite argument; no operation inside is undefined. -/
theorem C150_expf {x : Nat} (hp : Pat b32 x) (hx : Math.Spec.Finite b32 x) :
    ∃ r, expf x = some r ∧ Accurate b32 (1 / 2 ^ 42) (Real.exp (real b32 x)) r ∧ Faithful b32 (Real.exp (real b32 x)) r := by
  obtain ⟨r, e, h⟩ := expf_finite (x := x) hx
  rw [R_eq hp] at h
  exact ⟨r, e, h, faithful32 (by norm_num) h⟩

-- e^1, e^-1, e^88.7, e^89 (overflow), e^-104 (underflow), the smallest subnormal argument
example : Pat b32 0x3F800000 ∧ Math.Spec.Finite b32 0x3F800000 ∧ expf 0x3F800000 = some 0x402DF854 := by
  unfold Pat Math.Spec.Finite; decide +kernel
example : expf 0xBF800000 = some 0x3EBC5AB2 ∧ expf 0x42B20000 = some 0x7F800000 ∧ expf 0xC2D00000 = some 0 ∧ expf 0x00000001 = some 0x3F800000 := by
  decide +kernel

/-- C150: `expf` is 1 at both zeros, infinite at infinity and zero at minus infinity. -/
theorem C150_expf_special : expf 0 = some 0x3F800000 ∧ expf 0x80000000 = some 0x3F800000 ∧ expf b32.inf = some b32.inf ∧ expf 0xFF800000 = some 0 := by
  decide +kernel

/-- C150: `expf` is never negative; it is at least 1 at arguments not below zero and at most 1 at arguments not above. -/
theorem C150_expf_range {x r : Nat} (hp : Pat b32 x) (hx : Math.Spec.Finite b32 x) (h : expf x = some r) :
    ¬ negative b32 r ∧ (0 ≤ real b32 x → 0x3F800000 ≤ r) ∧ (real b32 x ≤ 0 → r ≤ 0x3F800000) := by
  obtain ⟨r', e, ha, hf⟩ := C150_expf hp hx
  obtain rfl : r' = r := by rw [e] at h; exact Option.some.inj h
  have hn := accurate_pos (by norm_num) (Real.exp_pos _) ha
  obtain ⟨z, -, hz⟩ := ha
  have hr := not_negative_le hz.pat hn
  obtain ⟨f1, f2⟩ := hf 0x3F800000 (by decide)
  rw [real_one, abs_of_pos (Real.exp_pos _), hr] at f1 f2
  exact ⟨hn, fun h0 => f1 (Real.one_le_exp h0), fun h0 => f2 (Real.exp_le_one_iff.2 h0)⟩

example : expf 0x33800000 = some 0x3F800001 ∧ expf 0xB3800000 = some 0x3F7FFFFF := by decide +kernel

/-- The code violates the expectation that a NaN yields a NaN without undefined behaviour: `expf`, `exp2f`, `expm1f`, `sinhf`, `coshf` and
`tanhf` convert a NaN to `int64_t`, which C leaves undefined. -/
theorem C150_nan_violated : expf 0x7FC00000 = none ∧ exp2f 0x7FC00000 = none ∧ expm1f 0x7FC00000 = none ∧
    sinhf 0x7FC00000 = none ∧ coshf 0x7FC00000 = none ∧ tanhf 0x7FC00000 = none := by decide +kernel

/-! ### `exp2f` -/

/-- C151: `exp2f` is accurate at every finite argument, the two hard-coded results included. -/
theorem C151_exp2f {x : Nat} (hp : Pat b32 x) (hx : Math.Spec.Finite b32 x) :
    ∃ r, exp2f x = some r ∧ Accurate b32 (1 / 2 ^ 38) (2 ^ real b32 x) r ∧ Faithful b32 (2 ^ real b32 x) r := by
  obtain ⟨r, e, h⟩ := exp2f_finite (x := x) hx
  rw [R_eq hp] at h
  exact ⟨r, e, h, faithful32 (by norm_num) h⟩

example : Pat b32 0x3F000000 ∧ Math.Spec.Finite b32 0x3F000000 ∧ exp2f 0x3F000000 = some 0x3FB504F3 := by
  unfold Pat Math.Spec.Finite; decide +kernel

/-- C151: `exp2f` is exact whenever the power is a float, so at the integers from -149 to 127. -/
theorem C151_exp2f_exact {x p : Nat} (hp : Pat b32 x) (hx : Math.Spec.Finite b32 x) (hq : p < b32.inf) (h : real b32 p = 2 ^ real b32 x) : exp2f x = some p := by
  obtain ⟨r, e, ha, hf⟩ := C151_exp2f hp hx
  have hpos : (0 : ℝ) < 2 ^ real b32 x := by positivity
  rw [e]
  congr 1
  have hn := accurate_pos (by norm_num) hpos ha
  obtain ⟨z, -, hz⟩ := ha
  have hr := not_negative_le hz.pat hn
  obtain ⟨f1, f2⟩ := hf p hq
  rw [h, abs_of_pos hpos, hr] at f1 f2
  have := f1 le_rfl
  have := f2 le_rfl
  omega

-- 2^10, 2^-149, 2^127, and 2^128 overflows
example : real b32 0x44800000 = 2 ^ real b32 0x41200000 := by
  rw [real_lit (m := 1024) (k := 0) (s := false) (by decide) (by decide) (by decide +kernel),
    real_lit (x := 0x41200000) (m := 10) (k := 0) (s := false) (by decide) (by decide) (by decide +kernel)]
  norm_num
example : exp2f 0x41200000 = some 0x44800000 ∧ exp2f 0xC3150000 = some 1 ∧ exp2f 0x42FE0000 = some 0x7F000000 ∧ exp2f 0x43000000 = some b32.inf := by
  decide +kernel

/-- C151: special values of `exp2f`. -/
theorem C151_exp2f_special : exp2f 0 = some 0x3F800000 ∧ exp2f 0x80000000 = some 0x3F800000 ∧ exp2f b32.inf = some b32.inf ∧ exp2f 0xFF800000 = some 0 := by
  decide +kernel

/-! ### `expm1f` -/

/-- C152: `expm1f` is accurate at every finite argument, also where `exp(x)` is close to 1. -/
theorem C152_expm1f {x : Nat} (hp : Pat b32 x) (hx : Math.Spec.Finite b32 x) :
    ∃ r, expm1f x = some r ∧ Accurate b32 (1 / 2 ^ 39) (Real.exp (real b32 x) - 1) r ∧ Faithful b32 (Real.exp (real b32 x) - 1) r := by
  obtain ⟨r, e, h⟩ := expm1f_finite (x := x) hp hx
  rw [R_eq hp] at h
  exact ⟨r, e, h, faithful32 (by norm_num) h⟩

example : Pat b32 0x3F800000 ∧ Math.Spec.Finite b32 0x3F800000 ∧ expm1f 0x3F800000 = some 0x3FDBF0A9 ∧ expm1f 0x00000007 = some 0x00000007 ∧
    expm1f 0x42C80000 = some b32.inf ∧ expm1f 0xC2C80000 = some 0xBF800000 := by
  unfold Pat Math.Spec.Finite; decide +kernel

/-- C152: `expm1f` has the sign of its argument and is at least -1. -/
theorem C152_expm1f_sign {x r : Nat} (hp : Pat b32 x) (hx : Math.Spec.Finite b32 x) (h : expm1f x = some r) :
    (0 < real b32 x → ¬ negative b32 r) ∧ (real b32 x < 0 → negative b32 r ∧ absOf b32 r ≤ 0x3F800000) := by
  obtain ⟨r', e, ha, hf⟩ := C152_expm1f hp hx
  obtain rfl : r' = r := by rw [e] at h; exact Option.some.inj h
  refine ⟨fun h0 => accurate_pos (by norm_num) (sub_pos.2 (Real.one_lt_exp_iff.2 h0)) ha,
    fun h0 => ⟨accurate_neg (by norm_num) (sub_neg.2 (Real.exp_lt_one_iff.2 h0)) ha, (hf 0x3F800000 (by decide)).2 ?_⟩⟩
  have h1 := Real.exp_pos (real b32 x)
  have h2 := Real.exp_lt_one_iff.2 h0
  rw [real_one, abs_of_neg (by linarith)]
  linarith

/-- C152: special values of `expm1f`; the sign of zero is kept. -/
theorem C152_expm1f_special : expm1f 0 = some 0 ∧ expm1f 0x80000000 = some 0x80000000 ∧ expm1f b32.inf = some b32.inf ∧ expm1f 0xFF800000 = some 0xBF800000 := by
  decide +kernel

/-! ### Hyperbolic functions -/

/-- C153: `sinhf` is accurate at every finite argument, beyond the overflow of the exponential inside as well. -/
theorem C153_sinhf {x : Nat} (hp : Pat b32 x) (hx : Math.Spec.Finite b32 x) :
    ∃ r, sinhf x = some r ∧ Accurate b32 (1 / 2 ^ 38) (Real.sinh (real b32 x)) r ∧ Faithful b32 (Real.sinh (real b32 x)) r := by
  obtain ⟨r, e, h⟩ := sinhf_finite (x := x) hp hx
  rw [R_eq hp] at h
  exact ⟨r, e, h, faithful32 (by norm_num) h⟩

-- 1, the smallest subnormal, 709.78265, just below the limit of the double exponential, and the float above
example : Pat b32 0x3F800000 ∧ Math.Spec.Finite b32 0x3F800000 ∧ sinhf 0x3F800000 = some 0x3F966CFE ∧ sinhf 0x80000001 = some 0x80000001 ∧
    sinhf 0x44317217 = some b32.inf ∧ sinhf 0xC4317218 = some 0xFF800000 := by
  unfold Pat Math.Spec.Finite; decide +kernel

/-- C153: `coshf` is accurate at every finite argument. -/
theorem C153_coshf {x : Nat} (hp : Pat b32 x) (hx : Math.Spec.Finite b32 x) :
    ∃ r, coshf x = some r ∧ Accurate b32 (1 / 2 ^ 41) (Real.cosh (real b32 x)) r ∧ Faithful b32 (Real.cosh (real b32 x)) r := by
  obtain ⟨r, e, h⟩ := coshf_finite (x := x) hx
  rw [R_eq hp] at h
  exact ⟨r, e, h, faithful32 (by norm_num) h⟩

example : coshf 0x3F800000 = some 0x3FC583AB ∧ coshf 0xBF800000 = some 0x3FC583AB ∧ coshf 0x80000001 = some 0x3F800000 := by decide +kernel

/-- C153: `tanhf` is accurate at every finite argument; the cutoff to 1 is where the rounding makes it 1. -/
theorem C153_tanhf {x : Nat} (hp : Pat b32 x) (hx : Math.Spec.Finite b32 x) :
    ∃ r, tanhf x = some r ∧ Accurate b32 (1 / 2 ^ 38) (Real.tanh (real b32 x)) r ∧ Faithful b32 (Real.tanh (real b32 x)) r := by
  obtain ⟨r, e, h⟩ := tanhf_finite (x := x) hp hx
  rw [R_eq hp] at h
  exact ⟨r, e, h, faithful32 (by norm_num) h⟩

example : tanhf 0x3F800000 = some 0x3F42F7D6 ∧ tanhf 0x41102CB3 = some 0x3F7FFFFF ∧ tanhf 0xC1102CB4 = some 0xBF800000 := by decide +kernel

/-- C153: `coshf` is at least 1; `tanhf` is between -1 and 1; `sinhf` and `tanhf` have the sign of the argument. -/
theorem C153_range {x : Nat} (hp : Pat b32 x) (hx : Math.Spec.Finite b32 x) :
    (∀ r, coshf x = some r → 0x3F800000 ≤ r ∧ ¬ negative b32 r) ∧
    (∀ r, tanhf x = some r → absOf b32 r ≤ 0x3F800000 ∧ (0 < real b32 x → ¬ negative b32 r) ∧ (real b32 x < 0 → negative b32 r)) ∧
    (∀ r, sinhf x = some r → (0 < real b32 x → ¬ negative b32 r) ∧ (real b32 x < 0 → negative b32 r)) := by
  refine ⟨fun r h => ?_, fun r h => ?_, fun r h => ?_⟩
  · obtain ⟨r', e, ha, hf⟩ := C153_coshf hp hx
    obtain rfl : r' = r := by rw [e] at h; exact Option.some.inj h
    have hn := accurate_pos (by norm_num) (Real.cosh_pos _) ha
    obtain ⟨z, -, hz⟩ := ha
    have hr := not_negative_le hz.pat hn
    refine ⟨?_, hn⟩
    have := (hf 0x3F800000 (by decide)).1 (by rw [real_one, abs_of_pos (Real.cosh_pos _)]; exact Real.one_le_cosh _)
    rwa [hr] at this
  · obtain ⟨r', e, ha, hf⟩ := C153_tanhf hp hx
    obtain rfl : r' = r := by rw [e] at h; exact Option.some.inj h
    refine ⟨(hf 0x3F800000 (by decide)).2 ?_, fun h0 => accurate_pos (by norm_num) (tanh_pos h0) ha,
      fun h0 => accurate_neg (by norm_num) (by have := tanh_pos (neg_pos.2 h0); rw [Real.tanh_neg] at this; linarith) ha⟩
    rw [real_one]
    exact abs_le.2 ⟨(Real.neg_one_lt_tanh _).le, (Real.tanh_lt_one _).le⟩
  · obtain ⟨r', e, ha, -⟩ := C153_sinhf hp hx
    obtain rfl : r' = r := by rw [e] at h; exact Option.some.inj h
    exact ⟨fun h0 => accurate_pos (by norm_num) (Real.sinh_pos_iff.2 h0) ha, fun h0 => accurate_neg (by norm_num) (Real.sinh_neg_iff.2 h0) ha⟩

/-- C153: values at zeros and infinities. -/
theorem C153_special : sinhf 0 = some 0 ∧ sinhf 0x80000000 = some 0x80000000 ∧ sinhf b32.inf = some b32.inf ∧ sinhf 0xFF800000 = some 0xFF800000 ∧
    coshf 0 = some 0x3F800000 ∧ coshf 0x80000000 = some 0x3F800000 ∧ coshf b32.inf = some b32.inf ∧ coshf 0xFF800000 = some b32.inf ∧
    tanhf 0 = some 0 ∧ tanhf 0x80000000 = some 0x80000000 ∧ tanhf b32.inf = some 0x3F800000 ∧ tanhf 0xFF800000 = some 0xBF800000 := by
  decide +kernel

end Verif.Approx
