import Verif.Int128.Model
import Verif.Float.Arith

/-!
# Model of floating-point → 128-bit integer conversions (`src/soft/integer/fix*ti.h`)

Arguments are bit patterns.  The `double` and `float` versions have the same text except for the type and the
suffix of the constants, so the model is parametrised by the format and the patterns of the two constants.
-/

namespace Verif.Int128
open Verif.Float

/-- Conversion of a floating-point number to `uint64_t`: `none` (undefined) if the integral part does not fit. -/
def toU64 (F : Fmt) (x : Nat) : Option Nat :=
  if F.isFin x = true ∧ F.whole x < 2 ^ 64 ∧ (F.neg x = false ∨ F.whole x = 0) then some (F.whole x) else none

/-- `high = 0x1p-64 * r; low = r - 0x1p64 * high`; `down` and `up` are the patterns of the two constants.
src/soft/integer/fixdfti.h:7-8, fixsfti.h:7-8, fixunsdfti.h:8-9, fixunssfti.h:8-9 -/
def limbs (F : Fmt) (down up r : Nat) : Option (Nat × Nat) := do
  let high ← toU64 F (F.mul down r)
  let low ← toU64 F (F.sub r (F.mul up (F.ofInt high)))
  some (high, low)

/-- `abs = (__int128)high << 64 | low; return signbit(x) ? -abs : abs`.  The shift is one of a signed number: `none` if the
result does not fit.  src/soft/integer/fixdfti.h:9-11, fixsfti.h:9-11 -/
def joinSigned (sign : Bool) (high low : Nat) : Option Int :=
  (chk128 ((high : Int) * 2 ^ 64)).bind fun shifted => if sign then chk128 (-(shifted + low)) else some (shifted + low)

/-- `fixdfti_`, src/soft/integer/fixdfti.h:4-12; `fixsfti_`, fixsfti.h:4-12 -/
def fixti (F : Fmt) (down up x : Nat) : Option Int := (limbs F down up (F.abs x)).bind fun p => joinSigned (F.neg x) p.1 p.2

/-- `fixunsdfti_`, src/soft/integer/fixunsdfti.h:3-12; `fixunssfti_`, fixunssfti.h:3-12; `one` is the pattern of `1`. -/
def fixunsti (F : Fmt) (down up one x : Nat) : Option Nat :=
  if F.lt x one then some 0
  else (limbs F down up x).map fun p => (p.1 <<< 64) % 2 ^ 128 ||| p.2

/-- src/soft/integer/fixdfti.c:4 -/
def fixdfti (x : Nat) : Option Int := fixti b64 0x3BF0000000000000 0x43F0000000000000 x

/-- src/soft/integer/fixsfti.c:4 -/
def fixsfti (x : Nat) : Option Int := fixti b32 0x1F800000 0x5F800000 x

/-- src/soft/integer/fixunsdfti.c:3 -/
def fixunsdfti (x : Nat) : Option Nat := fixunsti b64 0x3BF0000000000000 0x43F0000000000000 0x3FF0000000000000 x

/-- src/soft/integer/fixunssfti.c:3 -/
def fixunssfti (x : Nat) : Option Nat := fixunsti b32 0x1F800000 0x5F800000 0x3F800000 x

end Verif.Int128
