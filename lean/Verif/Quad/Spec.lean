import Verif.Math.Spec

/-!
# What `long double` arithmetic should compute

Patterns of binary128 and exact values in units of the smallest subnormal number, see `Verif.Math.Spec`.
-/

namespace Verif.Quad.Spec
open Verif.Float Verif.Math.Spec

/-- `r` is `x + y` rounded once; an exact zero is negative only if both operands are. -/
def IsSum (x y r : Nat) : Prop :=
  Rounded b128 (value b128 x + value b128 y) 1 r ∧
    (value b128 x + value b128 y = 0 → (negative b128 r ↔ negative b128 x ∧ negative b128 y))

/-- `r` is `x * y` rounded once, with the product of the signs. -/
def IsProduct (x y r : Nat) : Prop :=
  Pat b128 r ∧ (negative b128 r ↔ ¬ (negative b128 x ↔ negative b128 y)) ∧
    Nearest b128 (size b128 x * size b128 y) (2 ^ b128.unit) (absOf b128 r)

/-- `r` is `x / y` rounded once, with the product of the signs. -/
def IsQuotient (x y r : Nat) : Prop :=
  Pat b128 r ∧ (negative b128 r ↔ ¬ (negative b128 x ↔ negative b128 y)) ∧
    Nearest b128 (size b128 x * 2 ^ b128.unit) (size b128 y) (absOf b128 r)

/-- The positive finite number `r` is a square root of `x` rounded to nearest: `r - ulp/2 ≤ √x ≤ r + ulp/2`, squared,
where the neighbours of `r` are given by their patterns. -/
def NearRoot (x r : Nat) : Prop :=
  Pat b128 r ∧ ¬ negative b128 r ∧
    (b128.mag (r - 1) + b128.mag r) ^ 2 ≤ 4 * (size b128 x * 2 ^ b128.unit) ∧
    4 * (size b128 x * 2 ^ b128.unit) ≤ (b128.mag r + b128.mag (r + 1)) ^ 2

/-- The operands have different signs and the larger one is a power of two between 2^113 and 2^114 times as
large as the other. -/
def Straddle (x y : Nat) : Prop :=
  ¬ (negative b128 x ↔ negative b128 y) ∧
    ∃ n, max (size b128 x) (size b128 y) = 2 ^ n ∧
      2 ^ 113 * min (size b128 x) (size b128 y) < 2 ^ n ∧ 2 ^ n < 2 ^ 114 * min (size b128 x) (size b128 y)

/-- The exponent field; subnormal numbers have the exponent of the smallest normal ones. -/
def expo (x : Nat) : Nat := max 1 (absOf b128 x / 2 ^ 112)

/-- The order of values, with no order for NaN. -/
def Less (x y : Nat) : Prop := ¬ NaN b128 x ∧ ¬ NaN b128 y ∧ value b128 x < value b128 y
def Same (x y : Nat) : Prop := ¬ NaN b128 x ∧ ¬ NaN b128 y ∧ value b128 x = value b128 y

/-- `r` in format `G` is `x` in format `F` exactly: the same real number, the same infinity or the same zero. -/
def SameNumber (F G : Fmt) (x r : Nat) : Prop :=
  Pat G r ∧ (negative G r ↔ negative F x) ∧
    (Finite F x → Finite G r ∧ size G r * 2 ^ F.unit = size F x * 2 ^ G.unit) ∧ (Infinite F x → Infinite G r)

/-- `r` in format `G` is `x` in format `F` rounded once. -/
def Converted (F G : Fmt) (x r : Nat) : Prop :=
  Pat G r ∧ (negative G r ↔ negative F x) ∧
    (Finite F x → Nearest G (size F x * 2 ^ G.unit) (2 ^ F.unit) (absOf G r)) ∧ (Infinite F x → Infinite G r)

/-- The cases in which conversion of a finite `long double` to `double` goes wrong: halfway between two normal
numbers of which the lower one is even, or between 2^-1023 and 2^-1022 with nonzero bits beyond 2^-1075 and the
multiple of 2^-1075 below being 1 or 2 modulo 4. -/
def Mistruncated (x : Nat) : Prop :=
  (∃ n, 2 ^ 52 ≤ n ∧ n < b64.inf ∧ n % 2 = 0 ∧
    2 * (size b128 x * 2 ^ b64.unit) = 2 ^ b128.unit * b64.mag n + 2 ^ b128.unit * b64.mag (n + 1)) ∨
  (∃ q, 2 ^ 52 ≤ q ∧ q < 2 ^ 53 ∧ (q % 4 = 1 ∨ q % 4 = 2) ∧
    q * 2 ^ (b128.unit - b64.unit - 1) < size b128 x ∧ size b128 x < (q + 1) * 2 ^ (b128.unit - b64.unit - 1))

/-- `n` is `x` with the fraction dropped. -/
def Truncated (F : Fmt) (x : Nat) (n : Int) : Prop :=
  n.natAbs = size F x / 2 ^ F.unit ∧ (negative F x → n ≤ 0) ∧ (¬ negative F x → 0 ≤ n)

/-- `r` is `x` with the fraction dropped, as a `long double`. -/
def IntegralPart (x r : Nat) : Prop :=
  Pat b128 r ∧ (negative b128 r ↔ negative b128 x) ∧ size b128 r = size b128 x / 2 ^ b128.unit * 2 ^ b128.unit

/-- `r` is `x` rounded to an integer, halves to even, with the sign of `x`. -/
def NearestIntegral (x r : Nat) : Prop :=
  Pat b128 r ∧ (negative b128 r ↔ negative b128 x) ∧ ∃ n : Int, RoundEven b128 x n ∧ value b128 r = n * 2 ^ b128.unit

/-- `x` is a number of type `double`. -/
def IsDouble (x : Nat) : Prop := ∃ d, Pat b64 d ∧ Finite b64 d ∧ SameNumber b64 b128 d x

end Verif.Quad.Spec
