import Verif.Math.Spec
import Mathlib.Analysis.Real.Sqrt

/-! # Correct rounding of a real number -/

namespace Verif.Hyp.Spec
open Verif.Float Verif.Math.Spec

/-- Among all patterns up to infinity, `r` is the one whose magnitude is closest to the real number `v` (in units of the smallest
subnormal), an even pattern in case of a tie: IEEE-754 roundTiesToEven. -/
structure NearestReal (F : Fmt) (v : ℝ) (r : Nat) : Prop where
  le : r ≤ F.inf
  best : ∀ s ≤ F.inf, |v - F.mag r| ≤ |v - F.mag s|
  even : ∀ s ≤ F.inf, s ≠ r → |v - F.mag r| = |v - F.mag s| → r % 2 = 0

/-- The length of the hypotenuse in units of the smallest subnormal. -/
noncomputable def hyp (F : Fmt) (x y : Nat) : ℝ := Real.sqrt ((size F x : ℝ) ^ 2 + (size F y : ℝ) ^ 2)

end Verif.Hyp.Spec
