import Verif.Approx.Poly
import Mathlib.Analysis.SpecialFunctions.Trigonometric.Deriv

/-! # Taylor polynomials of the sine and the cosine bound them -/

namespace Verif.Approx

/-- The Taylor polynomial of the sine with `n` terms. -/
noncomputable def sinT : Nat → ℝ → ℝ
  | 0, _ => 0
  | n + 1, x => sinT n x + (-1) ^ n * x ^ (2 * n + 1) / (2 * n + 1).factorial

/-- The Taylor polynomial of the cosine with `n` terms. -/
noncomputable def cosT : Nat → ℝ → ℝ
  | 0, _ => 0
  | n + 1, x => cosT n x + (-1) ^ n * x ^ (2 * n) / (2 * n).factorial

theorem sinT_deriv (x : ℝ) : (n : Nat) → HasDerivAt (sinT n) (cosT n x) x
  | 0 => hasDerivAt_const x 0
  | n + 1 => by
    have h := (sinT_deriv x n).add ((((hasDerivAt_pow (2 * n + 1) x).const_mul ((-1) ^ n)).div_const ((2 * n + 1).factorial : ℝ)))
    refine h.congr_deriv ?_
    simp only [cosT]
    rw [Nat.factorial_succ]
    have : ((2 * n).factorial : ℝ) ≠ 0 := by positivity
    push_cast
    field_simp

theorem cosT_deriv (x : ℝ) : (n : Nat) → HasDerivAt (cosT (n + 1)) (-sinT n x) x
  | 0 => by
    have : cosT 1 = fun _ => (1 : ℝ) := by funext y; simp [cosT]
    rw [this]
    simpa [sinT] using hasDerivAt_const x (1 : ℝ)
  | n + 1 => by
    have h := (cosT_deriv x n).add ((((hasDerivAt_pow (2 * (n + 1)) x).const_mul ((-1) ^ (n + 1))).div_const ((2 * (n + 1)).factorial : ℝ)))
    refine h.congr_deriv ?_
    simp only [sinT]
    rw [show 2 * (n + 1) = 2 * n + 1 + 1 by ring, Nat.factorial_succ, Nat.add_sub_cancel]
    have : ((2 * n + 1).factorial : ℝ) ≠ 0 := by positivity
    push_cast
    field_simp
    ring

theorem sinT_zero : (n : Nat) → sinT n 0 = 0
  | 0 => rfl
  | n + 1 => by simp [sinT, sinT_zero n]

theorem cosT_zero : (n : Nat) → cosT (n + 1) 0 = 1
  | 0 => by simp [cosT]
  | n + 1 => by rw [cosT, cosT_zero n]; simp

theorem sin_step {n : Nat} (h : ∀ x, 0 ≤ x → 0 ≤ (-1) ^ (n + 1) * (Real.cos x - cosT (n + 1) x)) {x : ℝ} (hx : 0 ≤ x) :
    0 ≤ (-1) ^ (n + 1) * (Real.sin x - sinT (n + 1) x) :=
  grows (b := x) (f := fun x => (-1) ^ (n + 1) * (Real.sin x - sinT (n + 1) x)) (fun y _ _ => ((Real.hasDerivAt_sin y).sub (sinT_deriv y (n + 1))).const_mul _)
    (by simp [sinT_zero]) (fun y hy _ => h y hy) hx le_rfl

theorem cos_step {n : Nat} (h : ∀ x, 0 ≤ x → 0 ≤ (-1) ^ (n + 1) * (Real.sin x - sinT (n + 1) x)) {x : ℝ} (hx : 0 ≤ x) :
    0 ≤ (-1) ^ (n + 2) * (Real.cos x - cosT (n + 2) x) :=
  grows (b := x) (f := fun x => (-1) ^ (n + 2) * (Real.cos x - cosT (n + 2) x)) (fun y _ _ => ((Real.hasDerivAt_cos y).sub (cosT_deriv y (n + 1))).const_mul _)
    (by simp [cosT_zero]) (fun y hy _ => by have := h y hy; rw [pow_succ]; linarith) hx le_rfl

/-- The polynomials lie alternately above and below. -/
theorem cos_taylor : (n : Nat) → ∀ {x : ℝ}, 0 ≤ x → 0 ≤ (-1) ^ (n + 1) * (Real.cos x - cosT (n + 1) x)
  | 0, x, _ => by
    have := Real.cos_le_one x
    simp [cosT]
    linarith
  | n + 1, _, hx => cos_step (fun _ h => sin_step (fun _ h' => cos_taylor n h') h) hx

theorem sin_taylor (n : Nat) {x : ℝ} (hx : 0 ≤ x) : 0 ≤ (-1) ^ (n + 1) * (Real.sin x - sinT (n + 1) x) := sin_step (fun _ h => cos_taylor n h) hx

end Verif.Approx
