import Verif.Decimal.Model
import Verif.Quad.Model
import Verif.Int128.FloatModel

/-!
# Model of `strtold`

The parser of `Verif.Decimal.Model` for `long double`.  The conversion of decimal digits (parse/scientificl.h) is not modelled: it is an
arbitrary function.  `(long double)x` is `__floatuntitf`, `ldexp` is `ldexpl`.
-/

namespace Verif.Decimal
open Verif.Float

/-- `long double`: strtold.c:1-7. -/
def long (dec : Dec → Option Nat) : Scalar where
  fmt := b128
  capacity := 32
  ofDec := dec
  ofHex x n := Quad.ldexpl (Int128.floatuntitf x) n

/-- strtold.c:9-12. -/
def strtold (dec : Dec → Option Nat) (s : List Int) : Option Result := parsefloat (long dec) s

end Verif.Decimal
