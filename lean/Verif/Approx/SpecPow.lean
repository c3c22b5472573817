import Verif.Approx.Spec
import Mathlib.Analysis.SpecialFunctions.Pow.Real

/-!
# What `powf` should compute

Integers among the floating-point numbers, real powers, and results whose rounding is not a close call.
-/

namespace Verif.Approx.Spec
open Verif.Float Verif.Math.Spec

/-- `y` is an integer. -/
def Whole (F : Fmt) (y : Nat) : Prop := Math.Spec.Finite F y ∧ ∃ k : Int, value F y = k * 2 ^ F.unit

/-- `y` is an odd integer. -/
def OddWhole (F : Fmt) (y : Nat) : Prop := Math.Spec.Finite F y ∧ ∃ k : Int, value F y = (2 * k + 1) * 2 ^ F.unit

/-- `v` is `X` to the power `Y`: any power of a positive number, an integral one of a negative number. -/
def Power (X Y v : ℝ) : Prop := (0 < X ∧ v = X ^ Y) ∨ (X < 0 ∧ ∃ n : Int, Y = n ∧ v = X ^ n)

/-- `v` is not within a relative distance of `δ` from the midpoint of two finite floating-point numbers. -/
def FarFromMidpoints (F : Fmt) (δ v : ℝ) : Prop := ∀ p, p + 1 < F.inf → δ * v < |v - (real F p + real F (p + 1)) / 2|

end Verif.Approx.Spec
