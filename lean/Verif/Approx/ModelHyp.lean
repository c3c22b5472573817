import Verif.Approx.Model

/-! # Model of the hyperbolic functions for `float` -/

namespace Verif.Approx
open Verif.Float

/-- 0.5 -/
def half : Nat := 0x3FE0000000000000
/-- 2.0 -/
def two : Nat := 0x4000000000000000

/-- `sinhf`, src/math/float/sinhf.c:4-10.  `copysign(y, x)` takes the sign of the `float`. -/
def sinhf (x : Nat) : Option Nat :=
  (expm1Wide (b32.abs x)).map fun y =>
    narrow (b64.mul (b64.pack (b32.neg x) (b64.abs y)) (b64.add half (Arith.fdiv b64 half (b64.add y one))))

/-- `coshf`, src/math/float/coshf.c:4-9 -/
def coshf (x : Nat) : Option Nat :=
  (expWide (wide (b32.abs x))).map fun y => narrow (b64.add (b64.mul half y) (Arith.fdiv b64 half y))

/-- `right_`, src/math/float/tanhf.c:4-12; 9.010913f.  `2 * x` is a `float`. -/
def tanhRight (x : Nat) : Option Nat :=
  if b32.lt 0x41102CB3 x then some 0x3F800000
  else (expm1Wide (b32.mul 0x40000000 x)).map fun y => narrow (Arith.fdiv b64 y (b64.add y two))

/-- `tanhf`, src/math/float/tanhf.c:14-17 -/
def tanhf (x : Nat) : Option Nat := (tanhRight (b32.abs x)).map fun r => b32.pack (b32.neg x) (b32.abs r)

end Verif.Approx
