import Verif.Base
import Verif.Float.Arith

/-!
# Model of the integer absolute values and quotients, of `__powidf2` and of `__powisf2`

`src/stdlib/abs.h`, `div.h`, `src/inttypes/imaxabs.c`, `imaxdiv.c`, `src/soft/powi/powi.h`.  A signed integer type
is given by its width: 32 for `int` and `long`, 64 for `long long` and `intmax_t`.  `none` is undefined behaviour.
-/

namespace Verif.Arith
open Verif.Float

/-- The result of a signed operation at width `N`. -/
def chkN (N : Nat) (x : Int) : Option Int := if -2 ^ (N - 1) ≤ x ∧ x < 2 ^ (N - 1) then some x else none

/-- src/stdlib/abs.h:4-7: `a < 0 ? -a : a ? a : 0`; instances abs.c, labs.c (32), llabs.c, inttypes/imaxabs.c (64). -/
def abs (N : Nat) (a : Int) : Option Int := if a < 0 then chkN N (-a) else if a ≠ 0 then some a else some 0

/-- C division of signed integers. -/
def quotient (N : Nat) (a b : Int) : Option Int := if b = 0 then none else chkN N (a.tdiv b)

/-- C remainder of signed integers: undefined if the quotient is. -/
def remainder (N : Nat) (a b : Int) : Option Int := (quotient N a b).map fun _ => a.tmod b

/-- src/stdlib/div.h:8-16; instances div.c, ldiv.c (32), lldiv.c, inttypes/imaxdiv.c (64).  The result is `(quot, rem)`. -/
def div (N : Nat) (numerator denominator : Int) : Option (Int × Int) := do
  let quot ← quotient N numerator denominator
  let rem ← remainder N numerator denominator
  some (quot, rem)

/-- `f32.div` and `f64.div`. -/
def fdiv (F : Fmt) (x y : Nat) : Nat :=
  if F.isNaN x ∨ F.isNaN y then F.nan
  else if F.isFin x then
    if F.isFin y then
      if F.abs y = 0 then (if F.abs x = 0 then F.nan else F.pack (F.neg x != F.neg y) F.inf)
      else F.pack (F.neg x != F.neg y) (F.rnd (F.mag (F.abs x) * 2 ^ F.unit) (F.mag (F.abs y)))
    else F.pack (F.neg x != F.neg y) 0
  else if F.isFin y then F.pack (F.neg x != F.neg y) F.inf
  else F.nan

/-- `powu_`'s loop, src/soft/powi/powi.h:5-9 -/
def powuLoop (F : Fmt) (x y : Nat) (i : Nat) : Nat :=
  if h : i = 0 then y
  else powuLoop F (F.mul x x) (if i % 2 = 1 then F.mul y x else y) (i / 2)
termination_by i
decreasing_by omega

/-- `powu_`, src/soft/powi/powi.h:1-11.  `one` is the pattern of `1`. -/
def powu (F : Fmt) (one x i : Nat) : Nat := powuLoop F x one i

/-- `powi_`, src/soft/powi/powi.h:13-19 -/
def powi (F : Fmt) (one x : Nat) (i : Int) : Option Nat :=
  if i < 0 then (chk32 (-i)).map fun n => powu F one (fdiv F one x) n.toNat
  else some (powu F one x i.toNat)

/-- src/soft/powi/powidf2.c:5-8 -/
def powidf2 (x : Nat) (i : Int) : Option Nat := powi b64 0x3FF0000000000000 x i

/-- src/soft/powi/powisf2.c:5-8 -/
def powisf2 (x : Nat) (i : Int) : Option Nat := powi b32 0x3F800000 x i

end Verif.Arith
