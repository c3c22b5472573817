import Verif.Float.Spec

/-!
# What the bit-level math functions should compute

Stated on bit patterns with integers only: the magnitude `mag` of a pattern counts units of the smallest
subnormal number, so a relation between doubles is a relation between integers.
-/

namespace Verif.Math.Spec
open Verif.Float

/-- A pattern with its sign bit removed. -/
def absOf (F : Fmt) (x : Nat) : Nat := x % F.signBit

/-- The sign bit of a pattern. -/
def negative (F : Fmt) (x : Nat) : Prop := F.signBit ≤ x

instance (F : Fmt) (x : Nat) : Decidable (negative F x) := inferInstanceAs (Decidable (_ ≤ _))

/-- The patterns of the format. -/
def Pat (F : Fmt) (x : Nat) : Prop := x < 2 * F.signBit

def NaN (F : Fmt) (x : Nat) : Prop := F.inf < absOf F x
def Infinite (F : Fmt) (x : Nat) : Prop := absOf F x = F.inf
def Finite (F : Fmt) (x : Nat) : Prop := absOf F x < F.inf
def Zero (F : Fmt) (x : Nat) : Prop := absOf F x = 0

/-- The exact magnitude of a finite pattern, in units of the smallest subnormal. -/
def size (F : Fmt) (x : Nat) : Nat := F.mag (absOf F x)

/-- The exact value of a finite pattern, in the same units.  Infinities are larger than all of them. -/
def value (F : Fmt) (x : Nat) : Int := if negative F x then -(size F x : Int) else size F x

/-- `r` is `x - q * y` where `q` is `x / y` rounded toward zero; `r` has the sign of `x`. -/
def RemTrunc (F : Fmt) (x y r : Nat) : Prop :=
  ∃ q, size F x = q * size F y + size F r ∧ size F r < size F y ∧ (negative F r ↔ negative F x) ∧ Pat F r

/-- `q` is the integer nearest to `x / y`, an even one in case of a tie. -/
def NearQuo (F : Fmt) (x y : Nat) (q : Int) : Prop :=
  2 * (value F x - q * value F y).natAbs ≤ size F y ∧
    (2 * (value F x - q * value F y).natAbs = size F y → q % 2 = 0)

/-- `r` is `x - q * y` exactly, with the sign of `x` if it is zero. -/
def RemNear (F : Fmt) (x y : Nat) (q : Int) (r : Nat) : Prop :=
  NearQuo F x y q ∧ value F r = value F x - q * value F y ∧ (Zero F r → (negative F r ↔ negative F x)) ∧ Pat F r

/-- `r` is the next pattern above `x` in the order of values. -/
def NextUp (F : Fmt) (x r : Nat) : Prop :=
  Pat F r ∧ ¬ NaN F r ∧ value F x < value F r ∧ ∀ s, Pat F s → ¬ NaN F s → value F x < value F s → value F r ≤ value F s

/-- `r` is the next pattern below `x`. -/
def NextDown (F : Fmt) (x r : Nat) : Prop :=
  Pat F r ∧ ¬ NaN F r ∧ value F r < value F x ∧ ∀ s, Pat F s → ¬ NaN F s → value F s < value F x → value F s ≤ value F r

/-- `r` is `x * 2^n`, rounded once, with the sign of `x`. -/
def Scaled (F : Fmt) (x : Nat) (n : Int) (r : Nat) : Prop :=
  Pat F r ∧ (negative F r ↔ negative F x) ∧ Nearest F (size F x * 2 ^ n.toNat) (2 ^ (-n).toNat) (absOf F r)

/-- `2^k ≤ |x| < 2^(k+1)`. -/
def Exponent (F : Fmt) (x : Nat) (k : Int) : Prop :=
  0 ≤ k + F.unit ∧ 2 ^ (k + F.unit).toNat ≤ size F x ∧ size F x < 2 ^ (k + F.unit + 1).toNat

/-- `n` is `x` rounded to an integer, halves away from zero. -/
def RoundAway (F : Fmt) (x : Nat) (n : Int) : Prop :=
  n.natAbs = (2 * size F x + 2 ^ F.unit) / (2 * 2 ^ F.unit) ∧ (negative F x → n ≤ 0) ∧ (¬ negative F x → 0 ≤ n)

/-- `n` is `x` rounded to the nearest integer, halves to even. -/
def RoundEven (F : Fmt) (x : Nat) (n : Int) : Prop :=
  2 * (value F x - n * 2 ^ F.unit).natAbs ≤ 2 ^ F.unit ∧
    (2 * (value F x - n * 2 ^ F.unit).natAbs = 2 ^ F.unit → n % 2 = 0)

/-- `n` brought into the range of a signed type of `bits` bits. -/
def clamp (bits : Nat) (n : Int) : Int :=
  if n < -2 ^ (bits - 1) then -2 ^ (bits - 1) else if 2 ^ (bits - 1) - 1 < n then 2 ^ (bits - 1) - 1 else n

/-- `r` is `x - q * y` for the nearest `q`; `k` has the sign of `x / y` and the last three bits of `|q|`. -/
def RemQuo (F : Fmt) (x y r : Nat) (k : Int) : Prop :=
  ∃ q, RemNear F x y q r ∧ k.natAbs % 8 = q.natAbs % 8 ∧ ((negative F x ↔ negative F y) → 0 ≤ k) ∧ (¬ (negative F x ↔ negative F y) → k ≤ 0)

/-- The value of a pattern of `float` or `double` in units of the smallest subnormal of `long double`; an
infinity counts as one of `long double`. -/
def wide (F : Fmt) (x : Nat) : Int :=
  if absOf F x < F.inf then value F x * 2 ^ (b128.unit - F.unit)
  else if negative F x then -(b128.mag b128.inf : Int) else b128.mag b128.inf

/-- `f` and `i` are the fraction and the integral part of `x`, both with its sign. -/
def Parts (F : Fmt) (x f i : Nat) : Prop :=
  Pat F f ∧ Pat F i ∧ (negative F f ↔ negative F x) ∧ (negative F i ↔ negative F x) ∧
    value F f + value F i = value F x ∧ size F f < 2 ^ F.unit ∧ 2 ^ F.unit ∣ size F i

/-- `r` is the exact real `num` (in units) rounded once. -/
def Rounded (F : Fmt) (num : Int) (den : Nat) (r : Nat) : Prop :=
  Pat F r ∧ (num ≠ 0 → (negative F r ↔ num < 0)) ∧ Nearest F num.natAbs den (absOf F r)

end Verif.Math.Spec
