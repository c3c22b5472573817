import Verif.Approx.PropsTrig
import Verif.Approx.CplxHyp
import Mathlib.Analysis.Complex.Trigonometric

/-!
# C167 and C168: hyperbolic and trigonometric functions for `float _Complex`
-/

namespace Verif.Approx
open Verif.Float Verif.Math.Spec Verif.Approx.Spec

/-- The number a `float _Complex` stands for. -/
noncomputable def complex (z : Nat × Nat) : ℂ := ⟨real b32 z.1, real b32 z.2⟩

/-- Both parts are patterns of finite floats. -/
def FiniteC (z : Nat × Nat) : Prop := (Pat b32 z.1 ∧ Math.Spec.Finite b32 z.1) ∧ Pat b32 z.2 ∧ Math.Spec.Finite b32 z.2

/-- Both parts of `w` are accurate, so each is one of the two floats around the exact one. -/
def AccurateC (v : ℂ) (w : Nat × Nat) : Prop :=
  (Accurate b32 (1 / 2 ^ 26) v.re w.1 ∧ Faithful b32 v.re w.1) ∧ Accurate b32 (1 / 2 ^ 26) v.im w.2 ∧ Faithful b32 v.im w.2

theorem accurateC {v : ℂ} {w : Nat × Nat} (h1 : Accurate b32 (1 / 2 ^ 26) v.re w.1) (h2 : Accurate b32 (1 / 2 ^ 26) v.im w.2) : AccurateC v w :=
  ⟨⟨h1, faithful32 (by norm_num) h1⟩, h2, faithful32 (by norm_num) h2⟩

theorem sinh_parts (a b : ℝ) : (Complex.sinh ⟨a, b⟩).re = Real.sinh a * Real.cos b ∧ (Complex.sinh ⟨a, b⟩).im = Real.cosh a * Real.sin b := by
  have e : Complex.sinh ⟨a, b⟩ = Complex.sinh (a + b * Complex.I) := by congr 1; exact Complex.mk_eq_add_mul_I a b
  rw [e, Complex.sinh_add, Complex.cosh_mul_I, Complex.sinh_mul_I]
  rw [← Complex.ofReal_sinh, ← Complex.ofReal_cosh, ← Complex.ofReal_cos, ← Complex.ofReal_sin]
  constructor <;> simp only [Complex.add_re, Complex.add_im, Complex.sub_re, Complex.sub_im, Complex.mul_re, Complex.mul_im, Complex.ofReal_re, Complex.ofReal_im, Complex.I_re, Complex.I_im] <;> ring

theorem cosh_parts (a b : ℝ) : (Complex.cosh ⟨a, b⟩).re = Real.cosh a * Real.cos b ∧ (Complex.cosh ⟨a, b⟩).im = Real.sinh a * Real.sin b := by
  have e : Complex.cosh ⟨a, b⟩ = Complex.cosh (a + b * Complex.I) := by congr 1; exact Complex.mk_eq_add_mul_I a b
  rw [e, Complex.cosh_add, Complex.cosh_mul_I, Complex.sinh_mul_I]
  rw [← Complex.ofReal_sinh, ← Complex.ofReal_cosh, ← Complex.ofReal_cos, ← Complex.ofReal_sin]
  constructor <;> simp only [Complex.add_re, Complex.add_im, Complex.sub_re, Complex.sub_im, Complex.mul_re, Complex.mul_im, Complex.ofReal_re, Complex.ofReal_im, Complex.I_re, Complex.I_im] <;> ring

theorem sin_parts (a b : ℝ) : (Complex.sin ⟨a, b⟩).re = Real.cosh b * Real.sin a ∧ (Complex.sin ⟨a, b⟩).im = Real.sinh b * Real.cos a := by
  rw [Complex.sin_eq]
  rw [← Complex.ofReal_sinh, ← Complex.ofReal_cosh, ← Complex.ofReal_cos, ← Complex.ofReal_sin]
  constructor <;> simp only [Complex.add_re, Complex.add_im, Complex.sub_re, Complex.sub_im, Complex.mul_re, Complex.mul_im, Complex.ofReal_re, Complex.ofReal_im, Complex.I_re, Complex.I_im] <;> ring

theorem cos_parts (a b : ℝ) : (Complex.cos ⟨a, b⟩).re = Real.cosh b * Real.cos a ∧ (Complex.cos ⟨a, b⟩).im = -Real.sinh b * Real.sin a := by
  rw [Complex.cos_eq]
  rw [← Complex.ofReal_sinh, ← Complex.ofReal_cosh, ← Complex.ofReal_cos, ← Complex.ofReal_sin]
  constructor <;> simp only [Complex.add_re, Complex.add_im, Complex.sub_re, Complex.sub_im, Complex.mul_re, Complex.mul_im, Complex.ofReal_re, Complex.ofReal_im, Complex.I_re, Complex.I_im] <;> ring

/-- C167: both parts of `csinhf` are accurate at every finite argument. -/
theorem C167_csinhf {z : Nat × Nat} (h : FiniteC z) : ∃ w, csinhf z = some w ∧ AccurateC (Complex.sinh (complex z)) w := by
  obtain ⟨w, e, h1, h2⟩ := csinhWide_finite h.1.1 h.1.2 h.2.1 h.2.2
  rw [R_eq h.1.1, R_eq h.2.1] at h1 h2
  exact ⟨w, e, accurateC (by rw [complex, (sinh_parts _ _).1]; exact h1) (by rw [complex, (sinh_parts _ _).2]; exact h2)⟩

/-- C167: both parts of `ccoshf` are accurate at every finite argument. -/
theorem C167_ccoshf {z : Nat × Nat} (h : FiniteC z) : ∃ w, ccoshf z = some w ∧ AccurateC (Complex.cosh (complex z)) w := by
  obtain ⟨w, e, h1, h2⟩ := ccoshWide_finite h.1.1 h.1.2 h.2.1 h.2.2
  rw [R_eq h.1.1, R_eq h.2.1] at h1 h2
  exact ⟨w, e, accurateC (by rw [complex, (cosh_parts _ _).1]; exact h1) (by rw [complex, (cosh_parts _ _).2]; exact h2)⟩

/-- C167: both parts of `csinf` are accurate at every finite argument. -/
theorem C167_csinf {z : Nat × Nat} (h : FiniteC z) : ∃ w, csinf z = some w ∧ AccurateC (Complex.sin (complex z)) w := by
  obtain ⟨w, e, h1, h2⟩ := csinhWide_finite h.2.1 h.2.2 h.1.1 h.1.2
  rw [R_eq h.1.1, R_eq h.2.1] at h1 h2
  refine ⟨(w.2, w.1), by unfold csinf; rw [e]; rfl, accurateC (by rw [complex, (sin_parts _ _).1]; exact h2) (by rw [complex, (sin_parts _ _).2]; exact h1)⟩

/-- C167: both parts of `ccosf` are accurate at every finite argument. -/
theorem C167_ccosf {z : Nat × Nat} (h : FiniteC z) : ∃ w, ccosf z = some w ∧ AccurateC (Complex.cos (complex z)) w := by
  have po : Pat b32 (b32.opp z.2) := Fmt.pack_lt (Nat.mod_lt _ (by decide))
  obtain ⟨w, e, h1, h2⟩ := ccoshWide_finite po (fin_opp h.2.2) h.1.1 h.1.2
  rw [R_opp, R_eq h.1.1, R_eq h.2.1, Real.cosh_neg] at h1
  rw [R_opp, R_eq h.1.1, R_eq h.2.1, Real.sinh_neg] at h2
  exact ⟨w, e, accurateC (by rw [complex, (cos_parts _ _).1]; exact h1) (by rw [complex, (cos_parts _ _).2]; exact h2)⟩

-- at 1 + i, at 90 + 1.5707964i where the hyperbolic functions alone overflow, and at a subnormal number
example : FiniteC (0x3F800000, 0x3F800000) ∧ FiniteC (0x42B40000, 0x3FC90FDB) ∧ FiniteC (0x00000001, 0x80000001) := by
  unfold FiniteC Pat Math.Spec.Finite; decide
example : csinhf (0x3F800000, 0x3F800000) = some (0x3F228CFF, 0x3FA633DC) ∧ ccoshf (0xC0200000, 0x40E00000) = some (0x4093F0D2, 0xC07E64D1) ∧
    csinf (0xC0200000, 0x40E00000) = some (0xC3A41384, 0xC3DBA3D6) ∧ ccosf (0xC0200000, 0x40E00000) = some (0xC3DBA3EE, 0x43A41372) ∧
    csinhf (0x42B40000, 0x3FC90FDB) = some (0xF3A8542C, 0x7F800000) ∧ csinhf (0x00000001, 0x80000001) = some (0x00000001, 0x80000001) := by decide +kernel

/-! ### Special cases -/

theorem expm1_inf_t {x : Nat} (hp : Pat b32 x) (h : Infinite b32 x) : expm1Wide (b32.abs x) = some b64.inf ∧ sinhOf b64.inf x = b64.pack (b32.neg x) b64.inf ∧
    coshOf b64.inf = b64.pack false b64.inf := by
  rcases (special_cases hp).2.1 h with rfl | rfl <;> decide +kernel

theorem inf_sign (s : Bool) : Infinite b32 (b32.pack s b32.inf) ∧ (negative b32 (b32.pack s b32.inf) ↔ s = true) := by
  unfold Math.Spec.Infinite negative; cases s <;> decide

theorem neg_negative {x : Nat} (hp : Pat b32 x) (h : Infinite b32 x) : b32.neg x = true ↔ negative b32 x := by
  rcases (special_cases hp).2.1 h with rfl | rfl <;> unfold negative <;> decide

theorem prod_sign {c : Nat} {s : Bool} {w : ℝ} (hc : Rel c w (85 / 100 / 2 ^ 26)) (hw : 1 / 2 ^ 151 ≤ |w|) :
    narrow (b64.mul (b64.pack s b64.inf) c) = b32.pack (s != decide (w < 0)) b32.inf ∧ w ≠ 0 := by
  have hw0 : w ≠ 0 := abs_pos.1 (lt_of_lt_of_le (by positivity) hw)
  obtain ⟨n1, n2⟩ := neg_of_rel hc (by norm_num) hw0
  rw [mul_inf_signed hc.fin n2, narrow_inf, n1]
  exact ⟨rfl, hw0⟩

/-- C168: an infinite real part and a finite angle give infinities in the direction of the angle, and a zero angle stays. -/
theorem C168_infinite {x y : Nat} (px : Pat b32 x) (hx : Infinite b32 x) (py : Pat b32 y) (hy : Math.Spec.Finite b32 y) :
    (Zero b32 y → csinhf (x, y) = some (x, y) ∧ ∃ i, ccoshf (x, y) = some (b32.inf, i) ∧ Zero b32 i ∧ (negative b32 i ↔ ¬ (negative b32 x ↔ negative b32 y))) ∧
      (¬ Zero b32 y → (∃ w, csinhf (x, y) = some w ∧ Infinite b32 w.1 ∧ (negative b32 w.1 ↔ (negative b32 x ↔ 0 < Real.cos (real b32 y))) ∧
          Infinite b32 w.2 ∧ (negative b32 w.2 ↔ Real.sin (real b32 y) < 0)) ∧
        ∃ w, ccoshf (x, y) = some w ∧ Infinite b32 w.1 ∧ (negative b32 w.1 ↔ Real.cos (real b32 y) < 0) ∧
          Infinite b32 w.2 ∧ (negative b32 w.2 ↔ (negative b32 x ↔ 0 < Real.sin (real b32 y)))) := by
  obtain ⟨e1, e2, e3⟩ := expm1_inf_t px hx
  refine ⟨fun h => ?_, fun h => ?_⟩
  · rcases (special_cases px).2.1 hx with rfl | rfl <;> rcases (special_cases py).1 h with rfl | rfl
    · exact ⟨by decide +kernel, 0, by decide +kernel, by unfold Math.Spec.Zero negative; decide⟩
    · exact ⟨by decide +kernel, 0x80000000, by decide +kernel, by unfold Math.Spec.Zero negative; decide⟩
    · exact ⟨by decide +kernel, 0x80000000, by decide +kernel, by unfold Math.Spec.Zero negative; decide⟩
    · exact ⟨by decide +kernel, 0, by decide +kernel, by unfold Math.Spec.Zero negative; decide⟩
  · have h0 : R b32 y ≠ 0 := fun e => h (by rcases zero_cases py e with rfl | rfl <;> unfold Math.Spec.Zero <;> decide)
    obtain ⟨c, hc, c1, c2, l1, l2⟩ := cisf_rel hy h0
    have hy0 : ¬ b32.eq y 0 = true := fun c => h0 (by rw [(eq_R hy z32.1).1 c, z32.2])
    have hn := neg_negative px hx
    rw [← R_eq py]
    have flip : ∀ {w : ℝ}, w ≠ 0 → (((b32.neg x != decide (w < 0)) = true) ↔ (negative b32 x ↔ 0 < w)) := by
      intro w hw
      rw [← hn]
      rcases lt_or_gt_of_ne hw with a | a
      · have : ¬ 0 < w := not_lt.2 a.le
        cases b32.neg x <;> simp [a, this]
      · have : ¬ w < 0 := not_lt.2 a.le
        cases b32.neg x <;> simp [a, this]
    have keep : ∀ {w : ℝ}, ((false != decide (w < 0)) = true) ↔ w < 0 := by intro w; simp
    constructor
    · unfold csinhf csinhWide
      rw [e1, Option.bind_some, hc, Option.map_some, if_neg hy0, if_neg (fun h => h.1 (sub_self_zero hy)), e2, e3]
      refine ⟨_, rfl, ?_⟩
      rw [(prod_sign c1 l1).1, (prod_sign c2 l2).1]
      exact ⟨(inf_sign _).1, (inf_sign _).2.trans (flip (prod_sign c1 l1 (s := false)).2), (inf_sign _).1, (inf_sign _).2.trans keep⟩
    · unfold ccoshf ccoshWide
      rw [e1, Option.bind_some, hc, Option.map_some, if_neg hy0, if_neg (fun h => h.1 (sub_self_zero hy)), if_neg (fun h => h.1 (sub_self_zero hy)), e2, e3]
      refine ⟨_, rfl, ?_⟩
      rw [(prod_sign c1 l1).1, (prod_sign c2 l2).1]
      exact ⟨(inf_sign _).1, (inf_sign _).2.trans keep, (inf_sign _).1, (inf_sign _).2.trans (flip (prod_sign c2 l2 (s := false)).2)⟩

-- -∞ + 2i: the cosine of 2 is negative, the sine positive
example : csinhf (0xFF800000, 0x40000000) = some (0x7F800000, 0x7F800000) ∧ ccoshf (0xFF800000, 0x40000000) = some (0xFF800000, 0xFF800000) := by decide +kernel
example : Infinite b32 0xFF800000 ∧ Math.Spec.Finite b32 0x40000000 ∧ ¬ Zero b32 0x40000000 := by unfold Math.Spec.Infinite Math.Spec.Finite Math.Spec.Zero; decide

theorem no_angle {y : Nat} (py : Pat b32 y) (h : Infinite b32 y ∨ NaN b32 y) :
    cisf y = some (b64.nan, b64.nan) ∧ b32.sub y y = b32.nan ∧ b32.eq y 0 = false := by
  rcases h with h | h
  · rcases (special_cases py).2.1 h with rfl | rfl <;> decide +kernel
  · have n := (special_cases py).2.2 h
    refine ⟨?_, nan_sub32 n, nan_eq32 n 0⟩
    unfold cisf
    rw [remPio2_nan n]
    decide +kernel

/-- C168: without an angle only a zero or infinite real part survives.  Missing: a NaN as the real part, see `C168_nan_violated`. -/
theorem C168_no_angle_partial {x y : Nat} (px : Pat b32 x) (hx : ¬ NaN b32 x) (py : Pat b32 y) (hy : Infinite b32 y ∨ NaN b32 y) :
    ∃ v w, csinhf (x, y) = some v ∧ ccoshf (x, y) = some w ∧ NaN b32 v.2 ∧
      (Zero b32 x → v.1 = x ∧ NaN b32 w.1 ∧ w.2 = x) ∧ (Infinite b32 x → v.1 = x ∧ w.1 = b32.inf ∧ NaN b32 w.2) ∧
      (¬ Zero b32 x → ¬ Infinite b32 x → NaN b32 v.1 ∧ NaN b32 w.1 ∧ NaN b32 w.2) := by
  obtain ⟨c1, c2, c3⟩ := no_angle py hy
  have nn : NaN b32 b32.nan := by unfold NaN; decide
  have ne : ¬ b32.eq b32.nan 0 = true := by decide
  have c3' : ¬ b32.eq y 0 = true := by rw [c3]; decide
  unfold csinhf ccoshf csinhWide ccoshWide
  by_cases hi : Infinite b32 x
  · have hz : ¬ b32.eq x 0 = true := by rcases (special_cases px).2.1 hi with rfl | rfl <;> decide
    rw [(expm1_inf_t px hi).1, Option.bind_some, Option.bind_some, c1, Option.map_some, Option.map_some, if_neg c3', if_neg c3', c2,
      if_pos ⟨ne, Or.inr hi⟩, if_neg (fun h => hz h.2), if_pos ⟨ne, hi⟩]
    exact ⟨_, _, rfl, rfl, nn, fun h => absurd ((show b32.inf = absOf b32 x from hi.symm).trans h) (by decide), fun _ => ⟨rfl, rfl, nn⟩, fun _ h => absurd hi h⟩
  · have hf : Fin b32 x := by
      unfold NaN Math.Spec.Infinite at *
      show absOf b32 x < b32.inf
      omega
    obtain ⟨t, e, -⟩ := hyp_ok px hf
    rw [e, Option.bind_some, Option.bind_some, c1, Option.map_some, Option.map_some, if_neg c3', if_neg c3', c2]
    have hi' : ¬ b32.abs x = b32.inf := hi
    by_cases hz : Zero b32 x
    · have z : b32.eq x 0 = true := by rcases (special_cases px).1 hz with rfl | rfl <;> decide
      rw [if_pos ⟨ne, Or.inl z⟩, if_pos ⟨ne, z⟩]
      exact ⟨_, _, rfl, rfl, nn, fun _ => ⟨rfl, nn, rfl⟩, fun h => absurd h hi, fun h => absurd hz h⟩
    · have z : ¬ b32.eq x 0 = true := fun c => hz (by
        have : R b32 x = 0 := by rw [(eq_R hf z32.1).1 c, z32.2]
        rcases zero_cases px this with rfl | rfl <;> unfold Math.Spec.Zero <;> decide)
      rw [if_neg (fun h => h.2.elim z hi'), if_neg (fun h => z h.2), if_neg (fun h => hi' h.2)]
      have m : ∀ a, narrow (b64.mul a b64.nan) = b32.nan := by
        intro a
        rw [nan_mul (Or.inr (by decide))]
        decide +kernel
      refine ⟨_, _, rfl, rfl, ?_, fun h => absurd h hz, fun h => absurd h hi, fun _ _ => ?_⟩
      · show NaN b32 (narrow _); rw [m]; exact nn
      · show NaN b32 (narrow _) ∧ NaN b32 (narrow _) ∧ NaN b32 (narrow _)
        rw [m, m]; exact ⟨nn, nn, nn⟩

example : csinhf (0x80000000, 0x7F800000) = some (0x80000000, 0x7FC00000) ∧ ccoshf (0xFF800000, 0x7FC00000) = some (0x7F800000, 0x7FC00000) := by decide +kernel
example : ¬ NaN b32 0x80000000 ∧ Infinite b32 0x7F800000 ∧ NaN b32 0x7FC00000 := by unfold NaN Math.Spec.Infinite; decide

/-- C168: a NaN as the real part reaches a conversion of a NaN to an integer, which is undefined, whatever the imaginary part is: `csinhf`
and `ccoshf` do not return NaN as they should; likewise `csinf` and `ccosf` with a NaN as the imaginary part. -/
theorem C168_nan_violated (y : Nat) : csinhf (0x7FC00000, y) = none ∧ ccoshf (0x7FC00000, y) = none ∧ csinf (y, 0x7FC00000) = none ∧ ccosf (y, 0x7FC00000) = none := by
  have h1 : expm1Wide (b32.abs 0x7FC00000) = none := by decide +kernel
  have h2 : expm1Wide (b32.abs (b32.opp 0x7FC00000)) = none := by decide +kernel
  unfold csinhf ccoshf csinf ccosf csinhWide ccoshWide
  rw [h1, h2]
  exact ⟨rfl, rfl, rfl, rfl⟩

end Verif.Approx
