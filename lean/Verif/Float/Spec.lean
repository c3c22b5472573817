/-!
# IEEE-754 binary formats and rounding to nearest, ties to even

A format has `f` fraction bits and `w` exponent bits.  A bit pattern without its sign bit is a
natural number `n = E * 2^f + frac`; the magnitudes of the finite patterns, measured in units of
the smallest subnormal number, are the integers `mag n`.  All finite floating-point numbers are
integer multiples of that unit, so exact arithmetic needs only integers.
-/

namespace Verif.Float

/-- `f` fraction bits, `w` exponent bits. -/
structure Fmt where
  f : Nat
  w : Nat

def b32 : Fmt := ⟨23, 8⟩
def b64 : Fmt := ⟨52, 11⟩
def b128 : Fmt := ⟨112, 15⟩

namespace Fmt

/-- Exponent bias: 127, 1023, 16383. -/
def bias (F : Fmt) : Nat := 2 ^ (F.w - 1) - 1

/-- The unit of `mag` is `2^-unit`: 149, 1074, 16494. -/
def unit (F : Fmt) : Nat := F.bias + F.f - 1

/-- Pattern of +∞ (exponent all ones, fraction 0); larger patterns are NaNs. -/
def inf (F : Fmt) : Nat := (2 ^ F.w - 1) * 2 ^ F.f

/-- Weight of the sign bit. -/
def signBit (F : Fmt) : Nat := 2 ^ (F.f + F.w)

/-- Magnitude of a pattern in units of the smallest subnormal: `frac` if the exponent field is 0,
otherwise `(2^f + frac) * 2^(E-1)`.  For the infinity pattern this is the value the next
exponent would have; IEEE-754 rounding treats infinity exactly like that number. -/
def mag (F : Fmt) (n : Nat) : Nat :=
  if n < 2 ^ F.f then n else (2 ^ F.f + n % 2 ^ F.f) * 2 ^ (n / 2 ^ F.f - 1)

end Fmt

/-- Distance of naturals. -/
def dist (a b : Nat) : Nat := (a - b) + (b - a)

/-- `Nearest F num den r`: among all patterns up to infinity, `r` is the one whose magnitude is
closest to the rational `num/den` (in units of the smallest subnormal), an even pattern in case
of a tie: IEEE-754 roundTiesToEven. -/
structure Nearest (F : Fmt) (num den r : Nat) : Prop where
  le : r ≤ F.inf
  best : ∀ s ≤ F.inf, dist num (den * F.mag r) ≤ dist num (den * F.mag s)
  even : ∀ s ≤ F.inf, s ≠ r → dist num (den * F.mag r) = dist num (den * F.mag s) → r % 2 = 0

/-- The integer `a` converted to format `F` with rounding to nearest gives `bits`. -/
def RoundsInt (F : Fmt) (a : Int) (bits : Nat) : Prop :=
  ∃ r, Nearest F (a.natAbs * 2 ^ F.unit) 1 r ∧ bits = (if a < 0 then F.signBit else 0) + r

end Verif.Float
