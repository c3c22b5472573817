import Verif.Hyp.Spec

/-!
# Accuracy of functions without a closed form

The result of an accurate function is the correct rounding of a real number that differs from the exact value by a relative error
`ε` far below the spacing of the floating-point numbers.  So the result is the correctly rounded one unless the exact value lies within
`ε` of the midpoint between two neighbours.
-/

namespace Verif.Approx.Spec
open Verif.Float Verif.Math.Spec Verif.Hyp.Spec

/-- The number a pattern stands for. -/
noncomputable def real (F : Fmt) (x : Nat) : ℝ := (value F x : ℝ) / 2 ^ F.unit

/-- `r` is the real number `z`, rounded to nearest, halves to even. -/
structure Rounded (F : Fmt) (z : ℝ) (r : Nat) : Prop where
  pat : Pat F r
  near : NearestReal F (|z| * 2 ^ F.unit) (absOf F r)
  pos : 0 < z → ¬ negative F r
  neg : z < 0 → negative F r

/-- `r` is a number within a relative error of `ε` from `v`, rounded. -/
def Accurate (F : Fmt) (ε v : ℝ) (r : Nat) : Prop := ∃ z, |z - v| ≤ ε * |v| ∧ Rounded F z r

/-- The magnitude of `r` is that of `v` if this is a floating-point number and otherwise one of the two next to it: every finite number not
above `|v|` is not above `|r|`, and every one not below `|v|` is not below `|r|`. -/
def Faithful (F : Fmt) (v : ℝ) (r : Nat) : Prop :=
  ∀ p < F.inf, (real F p ≤ |v| → p ≤ absOf F r) ∧ (|v| ≤ real F p → absOf F r ≤ p)

end Verif.Approx.Spec
