import Verif.Approx.PowValue
import Verif.Approx.PowEval
import Verif.Approx.PowEvalTop

/-!
# C163 and C164: `powf`

C163 is the list of special cases in C11 F.10.4.4.  C164 is the accuracy at finite arguments.  The code computes a first attempt in `double`
and returns it unless it lies next to a midpoint of two floats, or out of the range of normal floats.  The second attempt needs a correct
`fma`, and that function is wrong when its sum cancels (C60), so the second attempt is wrong too.
-/

namespace Verif.Approx
open Verif.Float Verif.Approx.Spec
open Verif.Math.Spec (Pat absOf negative size value NaN Infinite)

/-! ### `fma` -/

/-- C60, in part: `fma` is accurate to a few units in the last place, and not undefined, when the product does not exceed three quarters of the addend in
magnitude and the addend is far from overflow and underflow. -/
theorem C60_fma_near_partial {a b c : Nat} (ha : Math.Spec.Finite b64 a) (hb : Math.Spec.Finite b64 b) (hc : Math.Spec.Finite b64 c) (pa : Pat b64 a) (pb : Pat b64 b)
    (pc : Pat b64 c) (h : |real b64 a * real b64 b| ≤ 3 / 4 * |real b64 c|) (lo : 1 / 2 ^ 190 ≤ |real b64 c|) (hi : |real b64 c| ≤ 2 ^ 200) :
    ∃ r, Math.fma a b c = some r ∧ Pat b64 r ∧ Math.Spec.Finite b64 r ∧
      |real b64 r - (real b64 a * real b64 b + real b64 c)| ≤ 8 / 2 ^ 53 * |real b64 c| := by
  rw [← R_eq pa, ← R_eq pb, ← R_eq pc] at *
  obtain ⟨r, r1, r2, r3, r4⟩ := fma_near ha hb hc pc h lo hi
  exact ⟨r, r1, r3, r2, by rw [← R_eq r3]; exact r4⟩

-- 3 * 0.25 - 5, and cancellation of half of the addend
example : Math.fma 0x4008000000000000 0x3FD0000000000000 0xC014000000000000 = some 0xC011000000000000 ∧
    Math.fma 0x3FE0000000000000 0x3FF0000000000000 0xBFF0000000000001 = some 0xBFE0000000000002 := by decide +kernel

/-! ### C163: special cases -/

/-- C163: the power with exponent zero is 1 for every base, NaN included, and a power of 1 is 1 for every exponent, NaN included. -/
theorem C163_one (x y : Nat) : (Math.Spec.Zero b32 y → powf x y = some 0x3F800000) ∧ powf 0x3F800000 y = some 0x3F800000 := by
  refine ⟨fun h => powf_zero h, ?_⟩
  by_cases h : b32.abs y = 0
  · exact powf_zero h
  · rw [powf_plain h (Or.inl (by decide)), unsigned_one]

example : powf 0x7FC00000 0x80000000 = some 0x3F800000 ∧ powf 0x3F800000 0x7FC00000 = some 0x3F800000 := by decide +kernel

/-- C163: otherwise a NaN in either argument gives a NaN. -/
theorem C163_nan {x y : Nat} (hp : Pat b32 x) (h : (NaN b32 x ∧ ¬ Math.Spec.Zero b32 y) ∨ (NaN b32 y ∧ x ≠ 0x3F800000)) :
    ∃ r, powf x y = some r ∧ NaN b32 r := by
  have h0 : b32.abs y ≠ 0 := by
    rcases h with ⟨-, h⟩ | ⟨h, -⟩
    · exact h
    · have : b32.inf < b32.abs y := h
      omega
  have h1 : x ≠ 0x3F800000 := by
    rcases h with ⟨h, -⟩ | ⟨-, h⟩
    · rintro rfl; revert h; unfold NaN; decide
    · exact h
  by_cases hs : b32.neg x = false ∨ b32.eq (b32.rint y) y = false
  · rw [powf_plain h0 hs, unsigned_nan hp h1 (by rcases h with ⟨h, -⟩ | ⟨h, -⟩; exacts [Or.inl h, Or.inr h])]
    exact ⟨_, rfl, by unfold NaN; decide⟩
  · simp only [not_or, Bool.not_eq_false] at hs
    have hx : b32.inf < b32.abs x := by
      rcases h with ⟨h, -⟩ | ⟨h, -⟩
      · exact h
      · rw [eq_nan h] at hs
        simp at hs
    rw [powf_neg h0 hs.1 hs.2, unsigned_nan (by rw [opp_of hp ((neg_of hp).1 hs.1)]; exact abs_pat) (by
      rw [opp_of hp ((neg_of hp).1 hs.1)]
      intro e
      have : b32.inf < absOf b32 x := hx
      rw [e] at this
      revert this; decide) (Or.inl (by rw [Fmt.abs_opp]; exact hx))]
    refine ⟨_, rfl, ?_⟩
    split
    · unfold NaN; decide
    · unfold NaN; decide

example : powf 0xFFC00001 0x40400000 = some 0xFFC00000 ∧ powf 0xBF800000 0x7FC00000 = some 0x7FC00000 := by decide +kernel

/-- C163: powers of zero.  With a negative exponent an infinity, otherwise a zero; the sign is that of the base if the exponent is an odd integer
and positive otherwise. -/
theorem C163_zero_base {x y : Nat} (hp : Pat b32 x) (hq : Pat b32 y) (hx : Math.Spec.Zero b32 x) (hy : ¬ NaN b32 y) (h0 : ¬ Math.Spec.Zero b32 y) :
    (negative b32 y → OddWhole b32 y → powf x y = some (x + 0x7F800000)) ∧ (negative b32 y → ¬ OddWhole b32 y → powf x y = some 0x7F800000) ∧
      (¬ negative b32 y → OddWhole b32 y → powf x y = some x) ∧ (¬ negative b32 y → ¬ OddWhole b32 y → powf x y = some 0) := by
  have hy' : b32.abs y ≤ b32.inf := not_lt.1 hy
  have ha : absOf b32 x = 0 := hx
  have k := powf_signed (m := if b32.neg y then b32.inf else 0) hp hy h0 (by rw [ha]; exact unsigned_zero (by decide) hy')
    (fun _ _ => unsigned_zero hx hy') (by split <;> decide)
  rw [k]
  refine ⟨fun h1 h2 => ?_, fun h1 h2 => ?_, fun h1 h2 => ?_, fun h1 h2 => ?_⟩
  · rw [(neg_of hq).2 h1]
    rcases zero_eq hp hx with ⟨a, rfl⟩ | ⟨a, rfl⟩
    · rw [if_pos ⟨a, h2⟩]; rfl
    · rw [if_neg (fun c => a c.1)]; rfl
  · rw [(neg_of hq).2 h1, if_neg (fun c => h2 c.2)]; rfl
  · rw [(neg_of' hq).2 h1]
    rcases zero_eq hp hx with ⟨a, rfl⟩ | ⟨a, rfl⟩
    · rw [if_pos ⟨a, h2⟩]; rfl
    · rw [if_neg (fun c => a c.1)]; rfl
  · rw [(neg_of' hq).2 h1, if_neg (fun c => h2 c.2)]; rfl

-- -0 to the power -3, -2, -1/2, 3, 2 and -inf
example : powf 0x80000000 0xC0400000 = some 0xFF800000 ∧ powf 0x80000000 0xC0000000 = some 0x7F800000 ∧ powf 0x80000000 0xBF000000 = some 0x7F800000 ∧
    powf 0x80000000 0x40400000 = some 0x80000000 ∧ powf 0x80000000 0x40000000 = some 0 ∧ powf 0x80000000 0xFF800000 = some 0x7F800000 := by decide +kernel

/-- -3 is odd. -/
example : OddWhole b32 0xC0400000 := ⟨by unfold Math.Spec.Finite; decide, -2, by decide +kernel⟩

/-- C163: powers of infinities. -/
theorem C163_infinite_base {x y : Nat} (hp : Pat b32 x) (hq : Pat b32 y) (hx : Math.Spec.Infinite b32 x) (hy : ¬ NaN b32 y) (h0 : ¬ Math.Spec.Zero b32 y) :
    (negative b32 y → OddWhole b32 y → powf x y = some (x - 0x7F800000)) ∧ (negative b32 y → ¬ OddWhole b32 y → powf x y = some 0) ∧
      (¬ negative b32 y → OddWhole b32 y → powf x y = some x) ∧ (¬ negative b32 y → ¬ OddWhole b32 y → powf x y = some 0x7F800000) := by
  have hy' : b32.abs y ≤ b32.inf := not_lt.1 hy
  have ha : absOf b32 x = b32.inf := hx
  have k := powf_signed (m := if b32.neg y then 0 else b32.inf) hp hy h0 (by rw [ha]; exact unsigned_inf (by unfold Pat; decide) (by decide) hy')
    (fun _ _ => unsigned_inf hp hx hy') (by split <;> decide)
  rw [k]
  refine ⟨fun h1 h2 => ?_, fun h1 h2 => ?_, fun h1 h2 => ?_, fun h1 h2 => ?_⟩
  · rw [(neg_of hq).2 h1]
    rcases inf_eq hp hx with ⟨a, rfl⟩ | ⟨a, rfl⟩
    · rw [if_pos ⟨a, h2⟩]; rfl
    · rw [if_neg (fun c => a c.1)]; rfl
  · rw [(neg_of hq).2 h1, if_neg (fun c => h2 c.2)]; rfl
  · rw [(neg_of' hq).2 h1]
    rcases inf_eq hp hx with ⟨a, rfl⟩ | ⟨a, rfl⟩
    · rw [if_pos ⟨a, h2⟩]; rfl
    · rw [if_neg (fun c => a c.1)]; rfl
  · rw [(neg_of' hq).2 h1, if_neg (fun c => h2 c.2)]; rfl

example : powf 0xFF800000 0xC0400000 = some 0x80000000 ∧ powf 0xFF800000 0x3F000000 = some 0x7F800000 ∧ powf 0xFF800000 0x40400000 = some 0xFF800000 := by
  decide +kernel

/-- C163: a power of a negative number is NaN unless the exponent is an integer. -/
theorem C163_domain {x y : Nat} (hp : Pat b32 x) (hx : Math.Spec.Finite b32 x) (hn : negative b32 x) (h0 : ¬ Math.Spec.Zero b32 x)
    (hf : Math.Spec.Finite b32 y) (hy : ¬ Whole b32 y) : ∃ r, powf x y = some r ∧ NaN b32 r := by
  have hz : b32.abs y ≠ 0 := fun e => hy ((whole_iff hf).2 (by
    change 2 ^ b32.unit ∣ b32.mag (b32.abs y)
    rw [e, b32.mag_zero]; exact Nat.dvd_zero _))
  rw [powf_plain hz (Or.inr (not_whole_rint hf hy)), unsigned_neg hp hn h0 hx (Nat.le_of_lt hf)]
  exact ⟨_, rfl, by unfold NaN; decide⟩

example : powf 0xBF800000 0x3F000000 = some 0x7FC00000 := by decide +kernel

/-- C163: infinite exponents: a zero or an infinity as the magnitude of the base is below or above 1, and 1 at the bases 1 and -1. -/
theorem C163_infinite_exponent {x y : Nat} (hp : Pat b32 x) (hq : Pat b32 y) (hx : Math.Spec.Finite b32 x) (h0 : ¬ Math.Spec.Zero b32 x)
    (hy : Math.Spec.Infinite b32 y) :
    (|real b32 x| < 1 → powf x y = some (if negative b32 y then 0x7F800000 else 0)) ∧
      (1 < |real b32 x| → powf x y = some (if negative b32 y then 0 else 0x7F800000)) ∧ (|real b32 x| = 1 → powf x y = some 0x3F800000) := by
  have hy' : b32.abs y = b32.inf := hy
  have ha : 0 < absOf b32 x := Nat.pos_of_ne_zero h0
  have hi : absOf b32 x < b32.inf := hx
  rw [powf_inf hp hy', abs_real hx, real_pat hi]
  change (_ → powUnsigned (absOf b32 x) y = _) ∧ (_ → powUnsigned (absOf b32 x) y = _) ∧ (_ → powUnsigned (absOf b32 x) y = _)
  generalize absOf b32 x = a at *
  obtain ⟨w1, w2, w3, w4⟩ := wide_pos ha hi
  have one : R b32 0x3F800000 = 1 := by
    rw [(R32_pat (by decide)).2, show b32.mag 0x3F800000 = 2 ^ b32.unit by decide +kernel, Nat.cast_pow, Nat.cast_ofNat]
    exact div_self (by positivity)
  have l0 : 0 < Real.log 2 := Real.log_pos (by norm_num)
  obtain ⟨l, k1, k2, -⟩ := log2Fast_rel w1 w2
  rw [w3] at k2
  obtain ⟨s1, s2⟩ := log_sign k2
  have core : R b32 a ≠ 1 → R b64 l ≠ 0 → powUnsigned a y = some (if b64.neg l != b32.neg y then 0 else b32.inf) := fun h h' => by
    rw [unsigned_core ha hi (fun e => h (e ▸ one)) hy'.le, wide_inf hy']
    exact core_inf k1 k2.fin h'
  refine ⟨fun h => ?_, fun h => ?_, fun h => ?_⟩
  · have hl := s2 (div_neg_of_neg_of_pos (Real.log_neg w4 h) l0)
    rw [core h.ne hl.ne, sign_of' hl]
    by_cases hn : negative b32 y
    · rw [(neg_of hq).2 hn, if_pos hn]; rfl
    · rw [(neg_of' hq).2 hn, if_neg hn]; rfl
  · have hl := s1 (div_pos (Real.log_pos h) l0)
    rw [core h.ne' hl.ne', sign_of hl]
    by_cases hn : negative b32 y
    · rw [(neg_of hq).2 hn, if_pos hn]; rfl
    · rw [(neg_of' hq).2 hn, if_neg hn]; rfl
  · have : a = 0x3F800000 := by
      rw [(R32_pat hi).2, div_eq_iff (by positivity), one_mul] at h
      refine Fmt.mag_inj b32 ?_
      rw [show b32.mag 0x3F800000 = 2 ^ b32.unit by decide +kernel]
      exact_mod_cast h
    rw [this, unsigned_one]

-- (-1)^inf, the float below 1 to the power inf, -2 to the power -inf
example : powf 0xBF800000 0x7F800000 = some 0x3F800000 ∧ powf 0x3F7FFFFF 0x7F800000 = some 0 ∧ powf 0xC0000000 0xFF800000 = some 0 := by decide +kernel

/-! ### C164: accuracy -/

/-- C164, in part: a power of finite numbers is correctly rounded if it overflows or underflows by far, or if it lies between 2^-126 and 2^127 and not
within a relative distance of 2^-38 of the midpoint of two floats.  Missing are the results next to midpoints, the subnormal ones, and those
from 2^127 to 2^131; there the claim is false, see below. -/
theorem C164_powf_partial {x y : Nat} (hp : Pat b32 x) (hx : Math.Spec.Finite b32 x) (hq : Pat b32 y) (hy : Math.Spec.Finite b32 y) {v : ℝ}
    (hv : Power (real b32 x) (real b32 y) v)
    (h : 2 ^ 131 ≤ |v| ∨ |v| ≤ 1 / 2 ^ 161 ∨
      ((1 + 1 / 2 ^ 38) / 2 ^ 126 ≤ |v| ∧ |v| ≤ (1 - 1 / 2 ^ 38) * 2 ^ 127 ∧ FarFromMidpoints b32 (1 / 2 ^ 38) |v|)) :
    ∃ r, powf x y = some r ∧ Rounded b32 v r := powf_value hp hx hq hy hv h

/-- C164, in part: a power that is a float is exact if its magnitude is between 2^-126 and 2^127. -/
theorem C164_powf_exact_partial {x y p : Nat} (hp : Pat b32 x) (hx : Math.Spec.Finite b32 x) (hq : Pat b32 y) (hy : Math.Spec.Finite b32 y) (hr : Pat b32 p)
    (h : Power (real b32 x) (real b32 y) (real b32 p)) (lo : 1 / 2 ^ 126 < |real b32 p|) (hi : |real b32 p| < 2 ^ 127)
    (hf : Math.Spec.Finite b32 p) : powf x y = some p := by
  have ha : absOf b32 p < b32.inf := hf
  have e := abs_real hf
  have hs : Settled |real b32 p| := by
    rw [e]
    rw [e, real_pat ha, (R32_pat ha).2] at lo hi
    have hu : (0 : ℝ) < 2 ^ b32.unit := by positivity
    rw [lt_div_iff₀ hu] at lo
    rw [div_lt_iff₀ hu] at hi
    refine settled_float ?_ ?_
    · rw [← Fmt.mag_lt_iff (F := b32), show b32.mag (2 ^ 23) = 2 ^ 23 by decide +kernel]
      rw [show b32.unit = 149 from rfl] at lo
      have : ((2 ^ 23 : Nat) : ℝ) < b32.mag (absOf b32 p) := lt_of_eq_of_lt (by norm_num) lo
      exact_mod_cast this
    · rw [← Fmt.mag_lt_iff (F := b32), show b32.mag 0x7F000000 = 2 ^ 127 * 2 ^ b32.unit by decide +kernel]
      exact_mod_cast hi
  obtain ⟨r, r1, r2⟩ := powf_value hp hx hq hy h hs
  have h0 : real b32 p ≠ 0 := fun c => by
    rw [c, _root_.abs_zero] at lo
    norm_num at lo
  rw [r1, rounded_eq hr hf rfl h0 r2]

theorem real_three : real b32 0x40400000 = 3 := by
  rw [real_pat (by decide), (R32_pat (by decide)).2, show b32.mag 0x40400000 = 3 * 2 ^ b32.unit by decide +kernel, Nat.cast_mul, Nat.cast_pow, Nat.cast_ofNat, Nat.cast_ofNat]
  exact mul_div_cancel_right₀ _ (by positivity)

-- (-3)^3 = -27: a case of the theorem above, and the value the model computes
example : powf 0xC0400000 0x40400000 = some 0xC1D80000 := by decide +kernel

/-- 3^3 = 27 satisfies the hypotheses. -/
example : Power (real b32 0x40400000) (real b32 0x40400000) (real b32 0x41D80000) ∧ 1 / 2 ^ 126 < |real b32 0x41D80000| ∧ |real b32 0x41D80000| < 2 ^ 127 := by
  have e : real b32 0x41D80000 = 27 := by
    rw [real_pat (by decide), (R32_pat (by decide)).2, show b32.mag 0x41D80000 = 27 * 2 ^ b32.unit by decide +kernel, Nat.cast_mul, Nat.cast_pow, Nat.cast_ofNat, Nat.cast_ofNat]
    exact mul_div_cancel_right₀ _ (by positivity)
  rw [real_three, e]
  refine ⟨Or.inl ⟨by norm_num, ?_⟩, by norm_num [abs_of_pos], by norm_num [abs_of_pos]⟩
  rw [show (3 : ℝ) = ((3 : Nat) : ℝ) by norm_num, Real.rpow_natCast]
  norm_num

-- the square root of 3, 2^126, 2^200 and 2^-200
example : powf 0x40400000 0x3F000000 = some 0x3FDDB3D7 ∧ powf 0x40000000 0x42FC0000 = some 0x7E800000 ∧ powf 0x40000000 0x43480000 = some 0x7F800000 ∧
    powf 0x40000000 0xC3480000 = some 0 := by decide +kernel

/-- C164 is violated: 2^127 is a float, but `powf(2, 127)` returns a number below three quarters of it. -/
theorem C164_powf_violated : ∃ r, powf 0x40000000 0x42FE0000 = some r ∧ Power (real b32 0x40000000) (real b32 0x42FE0000) (real b32 0x7F000000) ∧
    real b32 r < 3 / 4 * real b32 0x7F000000 := by
  refine ⟨0x7EB58298, powf_top, Or.inl ?_, ?_⟩
  · have e1 : real b32 0x40000000 = 2 := by
      rw [real_pat (by decide), (R32_pat (by decide)).2, show b32.mag 0x40000000 = 2 * 2 ^ b32.unit by decide +kernel, Nat.cast_mul, Nat.cast_pow, Nat.cast_ofNat]
      exact mul_div_cancel_right₀ _ (by positivity)
    have e2 : real b32 0x42FE0000 = 127 := by
      rw [real_pat (by decide), (R32_pat (by decide)).2, show b32.mag 0x42FE0000 = 127 * 2 ^ b32.unit by decide +kernel, Nat.cast_mul, Nat.cast_pow, Nat.cast_ofNat, Nat.cast_ofNat]
      exact mul_div_cancel_right₀ _ (by positivity)
    have e3 : real b32 0x7F000000 = 2 ^ 127 := by
      rw [real_pat (by decide), (R32_pat (by decide)).2, show b32.mag 0x7F000000 = 2 ^ 127 * 2 ^ b32.unit by decide +kernel, Nat.cast_mul, Nat.cast_pow, Nat.cast_pow, Nat.cast_ofNat]
      exact mul_div_cancel_right₀ _ (by positivity)
    rw [e1, e2, e3]
    refine ⟨by norm_num, ?_⟩
    rw [show (127 : ℝ) = ((127 : Nat) : ℝ) by norm_num, Real.rpow_natCast]
  · rw [real_pat (by decide), real_pat (by decide), (R32_pat (by decide)).2, (R32_pat (by decide)).2, ← mul_div_assoc]
    refine div_lt_div_of_pos_right ?_ (by positivity)
    have h : 4 * b32.mag 0x7EB58298 < 3 * b32.mag 0x7F000000 := by decide +kernel
    have h' : 4 * (b32.mag 0x7EB58298 : ℝ) < 3 * b32.mag 0x7F000000 := by exact_mod_cast h
    linarith

/-- C164 is violated in the middle of the range, too: 4097^2 lies between two floats that are next to each other, and `powf(4097, 2)` returns a number
below four fifths of the lower one. -/
theorem C164_powf_square_violated : ∃ r, powf 0x45800800 0x40000000 = some r ∧ real b32 0x4B801000 < real b32 0x45800800 ^ 2 ∧
    real b32 0x45800800 ^ 2 < real b32 0x4B801001 ∧ real b32 r < 4 / 5 * real b32 0x4B801000 := by
  have e : real b32 0x45800800 = 4097 := by
    rw [real_pat (by decide), (R32_pat (by decide)).2, show b32.mag 0x45800800 = 4097 * 2 ^ b32.unit by decide +kernel, Nat.cast_mul, Nat.cast_pow, Nat.cast_ofNat, Nat.cast_ofNat]
    exact mul_div_cancel_right₀ _ (by positivity)
  have e1 : real b32 0x4B801000 = 16785408 := by
    rw [real_pat (by decide), (R32_pat (by decide)).2, show b32.mag 0x4B801000 = 16785408 * 2 ^ b32.unit by decide +kernel, Nat.cast_mul, Nat.cast_pow, Nat.cast_ofNat, Nat.cast_ofNat]
    exact mul_div_cancel_right₀ _ (by positivity)
  have e2 : real b32 0x4B801001 = 16785410 := by
    rw [real_pat (by decide), (R32_pat (by decide)).2, show b32.mag 0x4B801001 = 16785410 * 2 ^ b32.unit by decide +kernel, Nat.cast_mul, Nat.cast_pow, Nat.cast_ofNat, Nat.cast_ofNat]
    exact mul_div_cancel_right₀ _ (by positivity)
  have e3 : real b32 0x4B472ADE = 13052638 := by
    rw [real_pat (by decide), (R32_pat (by decide)).2, show b32.mag 0x4B472ADE = 13052638 * 2 ^ b32.unit by decide +kernel, Nat.cast_mul, Nat.cast_pow, Nat.cast_ofNat, Nat.cast_ofNat]
    exact mul_div_cancel_right₀ _ (by positivity)
  refine ⟨0x4B472ADE, powf_square, ?_, ?_, ?_⟩
  · rw [e, e1]; norm_num
  · rw [e, e2]; norm_num
  · rw [e1, e3]; norm_num

end Verif.Approx
