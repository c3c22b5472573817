import Verif.Approx.PropsAtan
import Verif.Approx.Tanf

/-!
# C161 and C162: trigonometric functions for `float`
-/

namespace Verif.Approx
open Verif.Float Verif.Math.Spec Verif.Approx.Spec

/-- C161: `sinf` is accurate at every finite argument, however large, and nothing in it is undefined. -/
theorem C161_sinf {x : Nat} (hp : Pat b32 x) (hx : Math.Spec.Finite b32 x) :
    ∃ r, sinf x = some r ∧ Accurate b32 (1 / 2 ^ 26) (Real.sin (real b32 x)) r ∧ Faithful b32 (Real.sin (real b32 x)) r := by
  obtain ⟨r, e, h⟩ := sinf_finite hp hx
  rw [R_eq hp] at h
  exact ⟨r, e, h, faithful32 (by norm_num) h⟩

/-- C161: `cosf` is accurate at every finite argument, however large, and nothing in it is undefined. -/
theorem C161_cosf {x : Nat} (hp : Pat b32 x) (hx : Math.Spec.Finite b32 x) :
    ∃ r, cosf x = some r ∧ Accurate b32 (1 / 2 ^ 26) (Real.cos (real b32 x)) r ∧ Faithful b32 (Real.cos (real b32 x)) r := by
  obtain ⟨r, e, h⟩ := cosf_finite hp hx
  rw [R_eq hp] at h
  exact ⟨r, e, h, faithful32 (by norm_num) h⟩

-- at 1, the floats next to π/2 and π, the largest float, the smallest subnormal and the stored cases
example : sinf 0x3F800000 = some 0x3F576AA4 ∧ sinf 0x40490FDB = some 0xB3BBBD2E ∧ sinf 0x7F7FFFFF = some 0xBF0599B3 ∧ sinf 0x80000001 = some 0x80000001 ∧
    sinf 0x46199998 = some 0xBEB1FA5D ∧ cosf 0x3F800000 = some 0x3F0A5140 ∧ cosf 0x3FC90FDB = some 0xB33BBD2E ∧ cosf 0x7F7FFFFF = some 0x3F5A5F96 ∧ cosf 0xF908CD73 = some 0x3F798BB5 := by
  decide +kernel
example : Pat b32 0x7F7FFFFF ∧ Math.Spec.Finite b32 0x7F7FFFFF := by unfold Pat Math.Spec.Finite; decide

/-- C161: `sinf` and `cosf` stay within [-1, 1] and have the signs of the sine and the cosine. -/
theorem C161_range {x : Nat} (hp : Pat b32 x) (hx : Math.Spec.Finite b32 x) :
    (∃ r, sinf x = some r ∧ absOf b32 r ≤ 0x3F800000 ∧ (0 < Real.sin (real b32 x) → ¬ negative b32 r) ∧ (Real.sin (real b32 x) < 0 → negative b32 r)) ∧
      ∃ r, cosf x = some r ∧ absOf b32 r ≤ 0x3F800000 ∧ (0 < Real.cos (real b32 x) → ¬ negative b32 r) ∧ (Real.cos (real b32 x) < 0 → negative b32 r) := by
  obtain ⟨r, e, ha, hf⟩ := C161_sinf hp hx
  obtain ⟨s, e', hb, hg⟩ := C161_cosf hp hx
  have o : real b32 0x3F800000 = 1 := by
    rw [real_lit (x := 0x3F800000) (m := 8388608) (k := 23) (s := false) (by decide) (by decide) (by decide +kernel)]; norm_num
  exact ⟨⟨r, e, (hf 0x3F800000 (by decide)).2 (by rw [o]; exact Real.abs_sin_le_one _), fun h => accurate_pos (by norm_num) h ha, fun h => accurate_neg (by norm_num) h ha⟩,
    s, e', (hg 0x3F800000 (by decide)).2 (by rw [o]; exact Real.abs_cos_le_one _), fun h => accurate_pos (by norm_num) h hb, fun h => accurate_neg (by norm_num) h hb⟩

theorem nan_sub32 {x : Nat} (h : b32.isNaN x = true) : b32.sub x x = b32.nan := by unfold Fmt.sub Fmt.add; rw [if_pos (Or.inl h)]

theorem remPio2_nan {x : Nat} (h : b32.isNaN x = true) : remPio2 x = some (0, wide b32.nan) := by
  have hi : b32.inf = 0x7F800000 := rfl
  have := Fmt.isNaN_iff.1 h
  unfold remPio2
  rw [if_neg (by omega), if_pos (by omega), nan_sub32 h]

theorem nan_eq32 {x : Nat} (h : b32.isNaN x = true) (c : Nat) : b32.eq x c = false := by unfold Fmt.eq; simp [h]

/-- C161: `sinf` keeps zeros, `cosf` is 1 there, and the infinities and NaN give NaN. -/
theorem C161_special {x : Nat} (hp : Pat b32 x) :
    (Zero b32 x → sinf x = some x ∧ cosf x = some 0x3F800000) ∧
      (Infinite b32 x ∨ NaN b32 x → ∃ r s, sinf x = some r ∧ NaN b32 r ∧ cosf x = some s ∧ NaN b32 s) := by
  obtain ⟨s1, s2, s3⟩ := special_cases hp
  refine ⟨fun h => ?_, fun h => ?_⟩
  · rcases s1 h with rfl | rfl <;> decide +kernel
  · rcases h with h | h
    · rcases s2 h with rfl | rfl <;> exact ⟨b32.nan, b32.nan, by decide +kernel, by unfold NaN; decide, by decide +kernel, by unfold NaN; decide⟩
    · have hn := s3 h
      refine ⟨b32.nan, b32.nan, ?_, by unfold NaN; decide, ?_, by unfold NaN; decide⟩
      · unfold sinf
        simp only [nan_eq32 hn, remPio2_nan hn, Bool.false_eq_true, if_false]
        decide +kernel
      · unfold cosf
        simp only [nan_eq32 hn, remPio2_nan hn, Bool.false_eq_true, if_false, or_self]
        decide +kernel

example : sinf 0x80000000 = some 0x80000000 ∧ cosf 0x80000000 = some 0x3F800000 ∧ (Infinite b32 0xFF800000 ∨ NaN b32 0xFF800000) := by
  unfold Math.Spec.Infinite NaN; decide +kernel

/-- C162: `tanf` is accurate at every finite argument, also next to the poles, and nothing in it is undefined. -/
theorem C162_tanf {x : Nat} (hp : Pat b32 x) (hx : Math.Spec.Finite b32 x) :
    ∃ r, tanf x = some r ∧ Accurate b32 (1 / 2 ^ 26) (Real.tan (real b32 x)) r ∧ Faithful b32 (Real.tan (real b32 x)) r := by
  obtain ⟨r, e, h, -⟩ := tanf_finite hp hx
  rw [R_eq hp] at h
  exact ⟨r, e, h, faithful32 (by norm_num) h⟩

-- at 1, next to π/2, at the largest float, the smallest subnormal
example : tanf 0x3F800000 = some 0x3FC75923 ∧ tanf 0x3FC90FDB = some 0xCBAE8A4A ∧ tanf 0x7F7FFFFF = some 0xBF1C9ECA ∧ tanf 1 = some 1 := by decide +kernel

/-- C162: no `float` is a pole of the tangent: `tanf` of a finite number is finite, at most 2^53, and has the sign of the tangent. -/
theorem C162_range {x : Nat} (hp : Pat b32 x) (hx : Math.Spec.Finite b32 x) :
    ∃ r, tanf x = some r ∧ absOf b32 r ≤ 0x5A000000 ∧ (0 < Real.tan (real b32 x) → ¬ negative b32 r) ∧ (Real.tan (real b32 x) < 0 → negative b32 r) := by
  obtain ⟨r, e, h, hl⟩ := tanf_finite hp hx
  rw [R_eq hp] at h hl
  refine ⟨r, e, ((faithful32 (by norm_num) h) 0x5A000000 (by decide)).2 ?_, fun h0 => accurate_pos (by norm_num) h0 h, fun h0 => accurate_neg (by norm_num) h0 h⟩
  rw [real_lit (x := 0x5A000000) (m := 2 ^ 53) (k := 0) (s := false) (by decide) (by decide) (by decide +kernel)]
  refine hl.trans ?_
  norm_num

/-- C162: `tanf` keeps zeros, and the infinities and NaN give NaN. -/
theorem C162_special {x : Nat} (hp : Pat b32 x) :
    (Zero b32 x → tanf x = some x) ∧ (Infinite b32 x ∨ NaN b32 x → ∃ r, tanf x = some r ∧ NaN b32 r) := by
  obtain ⟨s1, s2, s3⟩ := special_cases hp
  refine ⟨fun h => ?_, fun h => ⟨b32.nan, ?_, by unfold NaN; decide⟩⟩
  · rcases s1 h with rfl | rfl <;> decide +kernel
  · rcases h with h | h
    · rcases s2 h with rfl | rfl <;> decide +kernel
    · unfold tanf
      rw [remPio2_nan (s3 h)]
      decide +kernel

example : tanf 0x80000000 = some 0x80000000 ∧ Zero b32 0x80000000 := by unfold Math.Spec.Zero; decide +kernel

/-- C162: the argument reduction shared by the three functions never reads its table of binary digits of 2/π out of bounds. -/
theorem C162_table {x : Nat} (hx : Math.Spec.Finite b32 x) : (absOf b32 x / 2 ^ 23 - 152) / 64 + 2 < pioBits.length := segments_inside hx

example : (absOf b32 0x7F7FFFFF / 2 ^ 23 - 152) / 64 + 2 = 3 ∧ pioBits.length = 4 := by decide

end Verif.Approx
