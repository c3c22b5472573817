import Verif.Approx.PropsCbrt
import Verif.Approx.Asinf

/-!
# C159 and C160: inverse trigonometric functions for `float`
-/

namespace Verif.Approx
open Verif.Float Verif.Math.Spec Verif.Approx.Spec

theorem special_cases {x : Nat} (hp : Pat b32 x) : (Zero b32 x → x = 0 ∨ x = 0x80000000) ∧ (Infinite b32 x → x = 0x7F800000 ∨ x = 0xFF800000) ∧
    (NaN b32 x → b32.isNaN x = true) := by
  have h1 : b32.signBit = 0x80000000 := rfl
  have h2 : b32.inf = 0x7F800000 := rfl
  refine ⟨fun h => ?_, fun h => ?_, fun h => Fmt.isNaN_iff.2 h⟩
  all_goals unfold Pat at hp; (first | unfold Math.Spec.Zero absOf at h | unfold Math.Spec.Infinite absOf at h)
  · rw [h1] at h hp; omega
  · rw [h1] at h hp; rw [h2] at h; omega

theorem nan64 : b64.isNaN b64.nan = true := by decide
theorem nan_wide {x : Nat} (h : b32.isNaN x = true) : wide x = b64.nan := by unfold wide Fmt.conv; rw [if_pos h]
theorem nan_mul {x y : Nat} (h : b64.isNaN x = true ∨ b64.isNaN y = true) : b64.mul x y = b64.nan := by unfold Fmt.mul; rw [if_pos h]
theorem nan_add {x y : Nat} (h : b64.isNaN x = true ∨ b64.isNaN y = true) : b64.add x y = b64.nan := by unfold Fmt.add; rw [if_pos h]
theorem nan_sub (x : Nat) : b64.sub x b64.nan = b64.nan := by unfold Fmt.sub; exact nan_add (Or.inr (by decide))
theorem nan_div {x y : Nat} (h : b64.isNaN x = true ∨ b64.isNaN y = true) : Arith.fdiv b64 x y = b64.nan := by unfold Arith.fdiv; rw [if_pos h]

theorem kernelAtan_nan : kernelAtan b64.nan = b64.nan := by decide +kernel

theorem kernelAsin_nan (u : Nat) : kernelAsin b64.nan u = b64.nan := by rw [kernelAsin_eq]; exact nan_add (Or.inl nan64)

/-- C159: `atanf` is accurate at every finite argument. -/
theorem C159_atanf {x : Nat} (hp : Pat b32 x) (hx : Math.Spec.Finite b32 x) :
    Accurate b32 (1 / 2 ^ 40) (Real.arctan (real b32 x)) (atanf x) ∧ Faithful b32 (Real.arctan (real b32 x)) (atanf x) := by
  have h := atanf_finite hp hx
  rw [R_eq hp] at h
  exact ⟨h, faithful32 (by norm_num) h⟩

-- at 1, -1, just above 1, at the smallest subnormal and the largest float
example : Pat b32 0xBF800000 ∧ Math.Spec.Finite b32 0xBF800000 ∧ atanf 0xBF800000 = 0xBF490FDB ∧ atanf 0x3F800001 = 0x3F490FDC ∧ atanf 1 = 1 ∧
    atanf 0xFF7FFFFF = 0xBFC90FDB ∧ atanf 0x40000000 = 0x3F8DB70D := by unfold Pat Math.Spec.Finite; decide +kernel

/-- C159: `atanf` has the sign of its argument and does not exceed the float `0x1.921fb6p0` next to π/2. -/
theorem C159_atanf_range {x : Nat} (hp : Pat b32 x) (hx : Math.Spec.Finite b32 x) :
    (0 < real b32 x → ¬ negative b32 (atanf x)) ∧ (real b32 x < 0 → negative b32 (atanf x)) ∧ absOf b32 (atanf x) ≤ 0x3FC90FDB := by
  obtain ⟨ha, hf⟩ := C159_atanf hp hx
  refine ⟨fun h => accurate_pos (by norm_num) (Real.arctan_pos.2 h) ha, fun h => accurate_neg (by norm_num) (Real.arctan_lt_zero.2 h) ha, ?_⟩
  refine (hf 0x3FC90FDB (by decide)).2 ?_
  have hpi := Real.pi_lt_d20
  have a := Real.arctan_lt_pi_div_two (real b32 x)
  have b := Real.neg_pi_div_two_lt_arctan (real b32 x)
  rw [real_lit (x := 0x3FC90FDB) (m := 13176795) (k := 23) (s := false) (by decide) (by decide) (by decide +kernel), abs_le]
  constructor <;> norm_num at hpi ⊢ <;> linarith

/-- C159: zeros are kept, at the infinities `atanf` is π/2 rounded, with the sign, and NaN gives NaN. -/
theorem C159_atanf_special {x : Nat} (hp : Pat b32 x) :
    (Zero b32 x → atanf x = x) ∧ (Infinite b32 x → atanf x = if negative b32 x then 0xBFC90FDB else 0x3FC90FDB) ∧ (NaN b32 x → NaN b32 (atanf x)) := by
  obtain ⟨s1, s2, s3⟩ := special_cases hp
  refine ⟨fun h => ?_, fun h => ?_, fun h => ?_⟩
  · rcases s1 h with rfl | rfl <;> decide +kernel
  · rcases s2 h with rfl | rfl
    · rw [if_neg (by unfold negative; decide)]; decide +kernel
    · rw [if_pos (by unfold negative; decide)]; decide +kernel
  · have hn := s3 h
    have ha : b32.isNaN (b32.abs x) = true := by rw [Fmt.isNaN_iff, abs_abs']; exact h
    unfold atanf
    rw [if_neg (by unfold Fmt.lt; simp [ha]), nan_wide hn, kernelAtan_nan]
    unfold NaN
    decide

example : atanf 0xFF800000 = 0xBFC90FDB ∧ atanf 0x80000000 = 0x80000000 ∧ Infinite b32 0xFF800000 ∧ negative b32 0xFF800000 := by
  unfold Math.Spec.Infinite negative; decide +kernel

/-! ### `asinf` and `acosf` -/

/-- C160: `asinf` is accurate at every argument from -1 to 1. -/
theorem C160_asinf {x : Nat} (hp : Pat b32 x) (hx : Math.Spec.Finite b32 x) (h : |real b32 x| ≤ 1) :
    Accurate b32 (1 / 2 ^ 36) (Real.arcsin (real b32 x)) (asinf x) ∧ Faithful b32 (Real.arcsin (real b32 x)) (asinf x) := by
  rw [← R_eq hp] at h
  have k := asinf_finite hp hx h
  rw [R_eq hp] at k
  exact ⟨k, faithful32 (by norm_num) k⟩

/-- C160: `acosf` is accurate at every argument from -1 to 1, also relatively near 1 where it vanishes. -/
theorem C160_acosf {x : Nat} (hp : Pat b32 x) (hx : Math.Spec.Finite b32 x) (h : |real b32 x| ≤ 1) :
    Accurate b32 (1 / 2 ^ 36) (Real.arccos (real b32 x)) (acosf x) ∧ Faithful b32 (Real.arccos (real b32 x)) (acosf x) := by
  rw [← R_eq hp] at h
  have k := acosf_finite hp hx h
  rw [R_eq hp] at k
  exact ⟨k, faithful32 (by norm_num) k⟩

-- at 0.5, -1, the floats next to 1 and 0, and the stored cases
example : asinf 0x3F000000 = 0x3F060A92 ∧ asinf 0xBF800000 = 0xBFC90FDB ∧ asinf 0x3F7FFFFF = 0x3FC9048A ∧ asinf 0x80000001 = 0x80000001 ∧ asinf 0xBF083A1A = 0xBF0FA5B2 ∧
    acosf 0x3F000000 = 0x3F860A92 ∧ acosf 0xBF800000 = 0x40490FDB ∧ acosf 0x3F7FFFFF = 0x39B504F3 ∧ acosf 0x3F800000 = 0 ∧ acosf 0 = 0x3FC90FDB ∧ acosf 0x39826222 = 0x3FC907B5 := by
  decide +kernel
example : Pat b32 0xBF083A1A ∧ Math.Spec.Finite b32 0xBF083A1A ∧ |real b32 0xBF083A1A| ≤ 1 := by
  refine ⟨by unfold Pat; decide, by unfold Math.Spec.Finite; decide, ?_⟩
  rw [real_lit (x := 0xBF083A1A) (m := 4463885) (k := 23) (s := true) (by decide) (by decide) (by decide +kernel), abs_le]
  constructor <;> norm_num

/-- C160: signs and ranges: `asinf` has the sign of its argument and stays within the float next to π/2, `acosf` is not negative and stays within the float next to π. -/
theorem C160_range {x : Nat} (hp : Pat b32 x) (hx : Math.Spec.Finite b32 x) (h : |real b32 x| ≤ 1) :
    (0 < real b32 x → ¬ negative b32 (asinf x)) ∧ (real b32 x < 0 → negative b32 (asinf x)) ∧ absOf b32 (asinf x) ≤ 0x3FC90FDB ∧
      (real b32 x < 1 → ¬ negative b32 (acosf x)) ∧ absOf b32 (acosf x) ≤ 0x40490FDB := by
  obtain ⟨ha, hf⟩ := C160_asinf hp hx h
  obtain ⟨hb, hg⟩ := C160_acosf hp hx h
  have hpi := Real.pi_lt_d20
  refine ⟨fun h => accurate_pos (by norm_num) (Real.arcsin_pos.2 h) ha, fun h => accurate_neg (by norm_num) (Real.arcsin_lt_zero.2 h) ha, ?_,
    fun h => accurate_pos (by norm_num) (Real.arccos_pos.2 h) hb, ?_⟩
  · refine (hf 0x3FC90FDB (by decide)).2 ?_
    have a := Real.arcsin_le_pi_div_two (real b32 x)
    have b := Real.neg_pi_div_two_le_arcsin (real b32 x)
    rw [real_lit (x := 0x3FC90FDB) (m := 13176795) (k := 23) (s := false) (by decide) (by decide) (by decide +kernel), abs_le]
    constructor <;> norm_num at hpi ⊢ <;> linarith
  · refine (hg 0x40490FDB (by decide)).2 ?_
    have a := Real.arccos_le_pi (real b32 x)
    have b := Real.arccos_nonneg (real b32 x)
    rw [real_lit (x := 0x40490FDB) (m := 13176795) (k := 22) (s := false) (by decide) (by decide) (by decide +kernel), abs_of_nonneg b]
    norm_num at hpi ⊢
    linarith

/-- Beyond 1 the square root is of a negative number. -/
theorem asinTwo_out {a : Nat} (ha : Fin b64 a) (h : 1 + 1 / 2 ^ 23 ≤ R b64 a) (h2 : R b64 a ≤ 2 ^ 200) : asinTwo a = b64.nan := by
  have o1 : R b64 one = 1 := by rw [k_one.2]; norm_num
  obtain ⟨b1, b2⟩ := sub_err ok64 top_big k_one.1 ha (by
    rw [o1, abs_le]
    have := le_Mx (x := 2 ^ 201) (by norm_num)
    have := le_Mx (x := 1) (by norm_num)
    constructor <;> norm_num at * <;> linarith)
  rw [o1, eps64] at b2
  have rs : Rel (b64.sub one a) (1 - R b64 a) (1 / 2 ^ 53) := ⟨b1, b2⟩
  generalize R b64 a = A at *
  have hA : 1 / 2 ^ 23 ≤ A - 1 := by linarith
  have hn : 1 / 2 * (1 - A) < 0 := by
    have : (0 : ℝ) < 1 / 2 ^ 23 := by norm_num
    linarith
  have ab : |1 / 2 * (1 - A)| = (A - 1) / 2 := by rw [abs_of_neg hn]; ring
  have ru := rel_half.mul rs (η := 2.1 / 2 ^ 53) (by norm_num) (by rw [_root_.add_zero, one_mul]; exact rel_big (by rw [ab]; norm_num at *; linarith) (by norm_num))
    (by rw [ab]; norm_num at *; linarith) (by norm_num)
  unfold asinTwo
  have hneg : R b64 (b64.mul half (b64.sub one a)) < 0 := by
    have := (abs_le.1 ru.err).2
    rw [ab] at this
    norm_num at *
    linarith
  have hfin := ru.fin
  generalize b64.mul half (b64.sub one a) = u at *
  have h0 : b64.abs u ≠ 0 := fun e => by rw [R_signed, e, b64.mag_zero] at hneg; simp at hneg
  have hs : b64.neg u = true := by
    by_contra c
    have := R_sign (F := b64) u
    rw [Bool.not_eq_true] at c
    rw [c] at this
    simp only [Bool.false_eq_true, if_false, one_mul] at this
    have := abs_nonneg (R b64 u)
    linarith
  have hq : Cplx.fsqrt b64 u = b64.nan := by
    unfold Cplx.fsqrt
    rw [if_neg (by rw [Fmt.not_nan_of_fin hfin]; decide), if_neg h0, if_pos hs]
  simp only [hq, kernelAsin_nan]
  exact nan_mul (Or.inr nan64)

theorem asinTwo_outside {x : Nat} (hp : Pat b32 x) (h : 0x3F800000 < absOf b32 x) : asinTwo (b64.abs (wide x)) = b64.nan ∧ b64.lt (b64.abs (wide x)) half = false := by
  rcases Nat.lt_trichotomy (b32.abs x) b32.inf with c | c | c
  · have hx : Fin b32 x := c
    obtain ⟨a1, a2⟩ := fabs_R hx
    have hb : 1 + 1 / 2 ^ 23 ≤ |R b32 x| := by
      rw [← a2]
      have := R32_mono (show 0x3F800001 ≤ b32.abs x from h) hx
      rw [(lit32 (x := 0x3F800001) (m := 8388609) (k := 23) (s := false) (by decide) (by decide) (by decide +kernel)).2] at this
      refine le_trans ?_ this
      norm_num
    obtain ⟨w1, w2, -, -⟩ := wideR hx
    obtain ⟨d1, d2⟩ := fabs_R w1
    rw [w2] at d2
    refine ⟨asinTwo_out d1 (by rw [d2]; exact hb) (by rw [d2]; exact (R32_le hx).trans (by norm_num)), ?_⟩
    rw [Bool.eq_false_iff]
    intro e
    have := (asin_split hx).1 e
    norm_num at *
    linarith
  · have : x = 0x7F800000 ∨ x = 0xFF800000 := (special_cases hp).2.1 c
    rcases this with rfl | rfl <;> decide +kernel
  · rw [nan_wide (Fmt.isNaN_iff.2 c)]
    decide +kernel

theorem above_ne {x c : Nat} (h : 0x3F800000 < absOf b32 x) (hc : b32.abs c < 0x3F800000) : b32.eq x c = false ∧ b32.eq (b32.abs x) c = false := by
  have key : ∀ y, b32.abs y = b32.abs x → b32.eq y c = false := fun y hy => by
    by_cases hn : b32.isNaN y = true
    · unfold Fmt.eq; simp [hn]
    · rw [Bool.eq_false_iff]; intro e
      rw [Fmt.eq_iff (by rw [Fmt.isNaN_iff] at hn; omega) (by have : b32.inf = 0x7F800000 := rfl; omega)] at e
      have m := b32.mag_strictMono (show b32.abs c < b32.abs y by rw [hy]; exact Nat.lt_trans hc h)
      unfold Fmt.val at e
      split_ifs at e <;> omega
  exact ⟨key x rfl, key _ abs_abs'⟩

/-- C160: zeros are kept by `asinf`, `acosf` is +0 at 1, and outside [-1, 1] and for NaN both give NaN. -/
theorem C160_special {x : Nat} (hp : Pat b32 x) :
    (Zero b32 x → asinf x = x) ∧ acosf 0x3F800000 = 0 ∧ (0x3F800000 < absOf b32 x → NaN b32 (asinf x) ∧ NaN b32 (acosf x)) := by
  refine ⟨fun h => ?_, by decide +kernel, fun h => ?_⟩
  · rcases (special_cases hp).1 h with rfl | rfl <;> decide +kernel
  · obtain ⟨k1, k2⟩ := asinTwo_outside hp h
    unfold asinf acosf
    simp only [k1, k2, Bool.false_eq_true, if_false, (above_ne (c := 0x3F083A1A) h (by decide)).2, nan_sub, ite_self]
    unfold NaN
    refine ⟨?_, by decide⟩
    unfold Fmt.copysign
    rw [show absOf b32 _ = b32.abs _ from rfl, Fmt.abs_pack (show b32.abs (narrow b64.nan) < b32.signBit from Nat.mod_lt _ (by decide))]
    decide

-- NaN, both infinities and the float above 1 are outside
example : 0x3F800000 < absOf b32 0x7FC00000 ∧ 0x3F800000 < absOf b32 0xFF800000 ∧ 0x3F800000 < absOf b32 0xBF800001 ∧ asinf 0xBF800001 = 0xFFC00000 ∧
    acosf 0xBF800001 = 0x7FC00000 := by decide +kernel

end Verif.Approx
