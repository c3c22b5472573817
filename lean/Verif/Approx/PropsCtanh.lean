import Verif.Approx.PropsCplx
import Verif.Approx.CplxTanhMain

/-!
# C169 and C170: `ctanhf` and `ctanf`
-/

namespace Verif.Approx
open Verif.Float Verif.Math.Spec Verif.Approx.Spec

theorem tanh_parts (a b : ℝ) : (Complex.tanh ⟨a, b⟩).re = Real.sinh a * Real.cosh a / (Real.sinh a ^ 2 + Real.cos b ^ 2) ∧
    (Complex.tanh ⟨a, b⟩).im = Real.sin b * Real.cos b / (Real.sinh a ^ 2 + Real.cos b ^ 2) := by
  obtain ⟨s1, s2⟩ := sinh_parts a b
  obtain ⟨c1, c2⟩ := cosh_parts a b
  have hn : Complex.normSq (Complex.cosh ⟨a, b⟩) = Real.sinh a ^ 2 + Real.cos b ^ 2 := by
    rw [Complex.normSq_apply, c1, c2]
    have h1 := Real.cosh_sq a
    have h2 := Real.sin_sq_add_cos_sq b
    linear_combination Real.cos b ^ 2 * h1 + Real.sinh a ^ 2 * h2
  have h1 := Real.cosh_sq a
  have h2 := Real.sin_sq_add_cos_sq b
  rw [Complex.tanh_eq_sinh_div_cosh, Complex.div_re, Complex.div_im, hn, s1, s2, c1, c2, ← add_div, ← sub_div]
  constructor
  · congr 1; linear_combination Real.sinh a * Real.cosh a * h2
  · congr 1; linear_combination Real.sin b * Real.cos b * h1

theorem tan_parts (a b : ℝ) : (Complex.tan ⟨a, b⟩).re = Real.sin a * Real.cos a / (Real.sinh b ^ 2 + Real.cos a ^ 2) ∧
    (Complex.tan ⟨a, b⟩).im = Real.sinh b * Real.cosh b / (Real.sinh b ^ 2 + Real.cos a ^ 2) := by
  obtain ⟨s1, s2⟩ := sin_parts a b
  obtain ⟨c1, c2⟩ := cos_parts a b
  have h1 := Real.cosh_sq b
  have h2 := Real.sin_sq_add_cos_sq a
  have hn : Complex.normSq (Complex.cos ⟨a, b⟩) = Real.sinh b ^ 2 + Real.cos a ^ 2 := by
    rw [Complex.normSq_apply, c1, c2]
    linear_combination Real.cos a ^ 2 * h1 + Real.sinh b ^ 2 * h2
  rw [Complex.tan_eq_sin_div_cos, Complex.div_re, Complex.div_im, hn, s1, s2, c1, c2, ← add_div, ← sub_div]
  constructor
  · congr 1; linear_combination Real.sin a * Real.cos a * h1
  · congr 1; linear_combination Real.sinh b * Real.cosh b * h2

/-- Both parts of `w` are the rounded value of a number within a relative error of 7/2^27, less than one unit in the last place. -/
def NearC (v : ℂ) (w : Nat × Nat) : Prop := Accurate b32 (7 / 2 ^ 27) v.re w.1 ∧ Accurate b32 (7 / 2 ^ 27) v.im w.2

/-- C169: both parts of `ctanhf` are accurate at every finite argument, near the poles and where the hyperbolic functions overflow. -/
theorem C169_ctanhf {z : Nat × Nat} (h : FiniteC z) : ∃ w, ctanhf z = some w ∧ NearC (Complex.tanh (complex z)) w := by
  obtain ⟨w, e, h1, h2⟩ := ctanhf_finite h.1.1 h.1.2 h.2.1 h.2.2
  rw [R_eq h.1.1, R_eq h.2.1] at h1 h2
  exact ⟨w, e, by rw [complex, (tanh_parts _ _).1]; exact h1, by rw [complex, (tanh_parts _ _).2]; exact h2⟩

/-- C169: both parts of `ctanf` are accurate at every finite argument. -/
theorem C169_ctanf {z : Nat × Nat} (h : FiniteC z) : ∃ w, ctanf z = some w ∧ NearC (Complex.tan (complex z)) w := by
  obtain ⟨w, e, h1, h2⟩ := ctanhf_finite h.2.1 h.2.2 h.1.1 h.1.2
  rw [R_eq h.1.1, R_eq h.2.1] at h1 h2
  exact ⟨(w.2, w.1), by unfold ctanf; rw [e]; rfl, by rw [complex, (tan_parts _ _).1]; exact h2, by rw [complex, (tan_parts _ _).2]; exact h1⟩

-- at 1 + i, next to the pole at iπ/2, far out where the imaginary part underflows, and at a subnormal number
example : FiniteC (0x3F800000, 0x3F800000) ∧ FiniteC (0x00000001, 0x3FC90FDB) ∧ FiniteC (0x42B40000, 0x3F800000) := by
  unfold FiniteC Pat Math.Spec.Finite; decide
example : ctanhf (0x3F800000, 0x3F800000) = some (0x3F8ABE00, 0x3E8B2328) ∧ ctanhf (0x00000001, 0x3FC90FDB) = some (0x0D6E008F, 0xCBAE8A4A) ∧
    ctanhf (0xC2B40000, 0x3F800000) = some (0xBF800000, 0) ∧ ctanf (0xC0200000, 0x40E00000) = some (0x35D60B09, 0x3F7FFFF8) := by decide +kernel

/-! ### Special cases -/

/-- C170: an infinite real part gives one with its sign, whatever the angle is, and a zero imaginary part with the sign of the sine of twice
a finite angle.  Missing: a zero angle, see `C170_zero_violated`, and a NaN as the real part, see `C170_nan_violated`. -/
theorem C170_infinite_partial {x y : Nat} (px : Pat b32 x) (hx : Infinite b32 x) (py : Pat b32 y) :
    ∃ w, ctanhf (x, y) = some w ∧ ctanf (y, x) = some (w.2, w.1) ∧ absOf b32 w.1 = 0x3F800000 ∧ (negative b32 w.1 ↔ negative b32 x) ∧ Zero b32 w.2 ∧
      (Math.Spec.Finite b32 y → ¬ Zero b32 y → (negative b32 w.2 ↔ Real.sin (2 * real b32 y) < 0)) := by
  have ex : expm1Wide (b32.mul 0x40000000 (b32.abs x)) = some b64.inf ∧ b32.isNaN x = false ∧ absOf b32 (b32.copysign 0x3F800000 x) = 0x3F800000 ∧
      (negative b32 (b32.copysign 0x3F800000 x) ↔ negative b32 x) := by
    rcases (special_cases px).2.1 hx with rfl | rfl <;> unfold negative <;> decide +kernel
  obtain ⟨e1, e2, e3, e4⟩ := ex
  have e2' : ∀ p, ¬ (b32.isNaN x = true ∧ p) := fun p h => by rw [e2] at h; exact absurd h.1 (by decide)
  unfold ctanf
  suffices h : ∃ w, ctanhf (x, y) = some w ∧ w.1 = b32.copysign 0x3F800000 x ∧ Zero b32 w.2 ∧
      (Math.Spec.Finite b32 y → ¬ Zero b32 y → (negative b32 w.2 ↔ Real.sin (2 * real b32 y) < 0)) by
    obtain ⟨w, h1, h2, h3, h4⟩ := h
    exact ⟨w, h1, by rw [h1]; rfl, by rw [h2]; exact e3, by rw [h2]; exact e4, h3, h4⟩
  unfold ctanhf
  rw [e1, Option.bind_some]
  by_cases hy : Math.Spec.Finite b32 y
  · obtain ⟨c, ec, -, -, sc⟩ := cis_ok py hy
    rw [ec, Option.map_some, if_neg (e2' _), if_neg (fun h => h (sub_self_zero hy)), if_pos (by decide +kernel)]
    have fin : Fin b64 (b64.mul c.2 c.1) := by
      rcases sc with ⟨-, h⟩ | ⟨-, h⟩
      · exact h.fin
      · unfold Fin; rw [h]; decide
    refine ⟨_, rfl, rfl, ?_⟩
    dsimp only
    rw [show b64.mul quarter b64.inf = b64.inf by decide +kernel, fdiv_inf fin (by decide), narrow_zero64, show b64.neg b64.inf = false by decide]
    refine ⟨?_, fun _ hz => ?_⟩
    · unfold Math.Spec.Zero; cases b64.neg (b64.mul c.2 c.1) <;> decide
    · have h0 : R b32 y ≠ 0 := fun e => hz (by rcases zero_cases py e with rfl | rfl <;> unfold Math.Spec.Zero <;> decide)
      obtain ⟨c', -, -, -, l1, l2⟩ := cisf_rel hy h0
      rcases sc with ⟨hs, h⟩ | ⟨hs, -⟩
      · rw [(neg_of_rel h (by norm_num) hs).1, ← R_eq py, Real.sin_two_mul, mul_assoc]
        by_cases c : Real.sin (R b32 y) * Real.cos (R b32 y) < 0
        · have c' : 2 * (Real.sin (R b32 y) * Real.cos (R b32 y)) < 0 := by linarith
          rw [decide_eq_true c]
          exact ⟨fun _ => c', fun _ => by unfold negative; decide⟩
        · have c' : ¬ 2 * (Real.sin (R b32 y) * Real.cos (R b32 y)) < 0 := by linarith
          rw [decide_eq_false c]
          exact ⟨fun h => absurd h (by unfold negative; decide), fun h => absurd h c'⟩
      · exact absurd hs (mul_ne_zero (abs_pos.1 (lt_of_lt_of_le (by positivity) l2)) (abs_pos.1 (lt_of_lt_of_le (by positivity) l1)))
  · have hy' : Infinite b32 y ∨ NaN b32 y := by
      unfold Math.Spec.Finite NaN Math.Spec.Infinite at *
      omega
    obtain ⟨c1, c2, c3⟩ := no_angle py hy'
    rw [c1, Option.map_some, c2, if_neg (e2' _), if_pos (by decide), if_pos (show b32.abs x = b32.inf from hx)]
    exact ⟨_, rfl, rfl, by show absOf b32 0 = 0; decide, fun h => absurd h hy⟩

example : ctanhf (0xFF800000, 0x40000000) = some (0xBF800000, 0x80000000) ∧ ctanhf (0x7F800000, 0x7FC00000) = some (0x3F800000, 0) := by decide +kernel
example : Infinite b32 0xFF800000 ∧ Math.Spec.Finite b32 0x40000000 ∧ ¬ Zero b32 0x40000000 := by unfold Math.Spec.Infinite Math.Spec.Finite Math.Spec.Zero; decide

/-- C170: a finite real part without an angle gives NaN in both parts. -/
theorem C170_no_angle_partial {x y : Nat} (px : Pat b32 x) (hx : Math.Spec.Finite b32 x) (py : Pat b32 y) (hy : Infinite b32 y ∨ NaN b32 y) :
    ∃ w, ctanhf (x, y) = some w ∧ NaN b32 w.1 ∧ NaN b32 w.2 := by
  obtain ⟨t, et, -⟩ := tanh_ok px hx
  obtain ⟨c1, c2, c3⟩ := no_angle py hy
  have nn : NaN b32 b32.nan := by unfold NaN; decide
  unfold ctanhf
  rw [et, Option.bind_some, c1, Option.map_some, c2, if_neg (fun h => by rw [c3] at h; exact absurd h.2 (by decide)), if_pos (by decide),
    if_neg (show ¬ b32.abs x = b32.inf from Nat.ne_of_lt hx)]
  exact ⟨_, rfl, nn, nn⟩

example : ctanhf (0x3F800000, 0x7F800000) = some (0x7FC00000, 0x7FC00000) := by decide +kernel
example : Math.Spec.Finite b32 0x3F800000 ∧ Infinite b32 0x7F800000 := by unfold Math.Spec.Infinite Math.Spec.Finite; decide

/-- C170: the functions should be odd and commute with conjugation, but a negative zero angle gives a positive zero. -/
theorem C170_zero_violated : ctanhf (0x3F800000, 0x80000000) = some (0x3F42F7D6, 0) ∧ ctanf (0x80000000, 0x3F800000) = some (0, 0x3F42F7D6) := by decide +kernel

/-- C170: a NaN as the real part reaches the conversion of a NaN to an integer, which is undefined, whatever the angle is. -/
theorem C170_nan_violated (y : Nat) : ctanhf (0x7FC00000, y) = none ∧ ctanf (y, 0x7FC00000) = none := by
  have h1 : expm1Wide (b32.mul 0x40000000 (b32.abs 0x7FC00000)) = none := by decide +kernel
  unfold ctanf ctanhf
  rw [h1]
  exact ⟨rfl, rfl⟩

end Verif.Approx
