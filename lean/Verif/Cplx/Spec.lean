import Verif.Math.Spec
import Mathlib.Data.Real.Basic

/-! # Infinities, zeros and roots of complex numbers (C11 Annex G) -/

namespace Verif.Cplx.Spec
open Verif.Float Verif.Math.Spec

/-- Both parts are patterns. -/
def PatC (F : Fmt) (z : Nat × Nat) : Prop := Pat F z.1 ∧ Pat F z.2

/-- A complex infinity has at least one infinite part, even if the other one is a NaN (G.3). -/
def InfC (F : Fmt) (z : Nat × Nat) : Prop := Infinite F z.1 ∨ Infinite F z.2

/-- Both parts are finite. -/
def FinC (F : Fmt) (z : Nat × Nat) : Prop := Finite F z.1 ∧ Finite F z.2

/-- Both parts are zeros. -/
def ZeroC (F : Fmt) (z : Nat × Nat) : Prop := Zero F z.1 ∧ Zero F z.2

/-- `r` is the square root of the positive number `x`, rounded to nearest: `4 x`, in units of the square of a unit, lies between the
squares of the sums of `r` with its neighbours. -/
def RootNearest (F : Fmt) (x r : Nat) : Prop :=
  r < F.inf ∧ (F.mag (r - 1) + F.mag r) ^ 2 ≤ 4 * (size F x * 2 ^ F.unit) ∧ 4 * (size F x * 2 ^ F.unit) ≤ (F.mag r + F.mag (r + 1)) ^ 2

/-- The number a pattern stands for. -/
noncomputable def real (F : Fmt) (x : Nat) : ℝ := (value F x : ℝ) / 2 ^ F.unit

end Verif.Cplx.Spec
