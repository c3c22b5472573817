import Mathlib.Data.List.OfFn

/-!
# Specification of sorting and searching (C11 7.22.5)

`E` is the type of element contents; a comparison function returns an integer.
-/

namespace Verif.Sort

variable {E : Type}

/-- What C11 7.22.5 p4 asks of a comparison function: its results are consistent with a total
preorder of the contents. -/
structure Consistent (cmp : E → E → Int) : Prop where
  swap : ∀ x y, cmp x y < 0 ↔ 0 < cmp y x
  trans : ∀ x y z, cmp x y ≤ 0 → cmp y z ≤ 0 → cmp x z ≤ 0

/-- The first `n` elements of `a` as a list. -/
def elements (a : Nat → E) (n : Nat) : List E := List.ofFn fun i : Fin n => a i

/-- Ascending order. -/
def Ascending (cmp : E → E → Int) (l : List E) : Prop := l.Pairwise fun x y => cmp x y ≤ 0

/-- The order of the array relative to the key that C11 7.22.5.1 p2 requires: elements less than the
key, then equal ones, then greater ones. -/
def Ordered {K : Type} (cmpk : K → E → Int) (key : K) (a : Nat → E) (n : Nat) : Prop :=
  ∀ i j, i ≤ j → j < n → (cmpk key (a j) ≥ 0 → cmpk key (a i) ≥ 0) ∧ (cmpk key (a j) > 0 → cmpk key (a i) > 0)

end Verif.Sort
