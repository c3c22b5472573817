import Verif.Base

/-!
# Specification of substring search
-/

namespace Verif.Find

/-- `x` occurs in `y` at offset `j`. -/
def OccursAt (y x : List Nat) (j : Nat) : Prop := j + x.length ≤ y.length ∧ ∀ t (_ : t < x.length), y[j + t]? = x[t]?

/-- The leftmost occurrence, or no occurrence. -/
def First (y x : List Nat) : Option Nat → Prop
  | some j => OccursAt y x j ∧ ∀ i, i < j → ¬ OccursAt y x i
  | none => ∀ i, ¬ OccursAt y x i

/-- Some proper suffix of `x` first differs from `x` in a byte that is smaller. -/
def HasSmaller (x : List Nat) : Prop := ∃ t l, ∃ h : t + l < x.length, (∀ i (_ : i < l), x[t + i] = x[i]) ∧ x[t + l] < x[l]

/-- Some proper suffix of `x` first differs from `x` in a byte that is larger. -/
def HasLarger (x : List Nat) : Prop := ∃ t l, ∃ h : t + l < x.length, (∀ i (_ : i < l), x[t + i] = x[i]) ∧ x[l] < x[t + l]

end Verif.Find
