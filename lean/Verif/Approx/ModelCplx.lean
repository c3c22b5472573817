import Verif.Approx.ModelTrig
import Verif.Approx.ModelHyp

/-!
# `csinhf`, `ccoshf`, `csinf`, `ccosf`, `ctanhf` and `ctanf`

A `float _Complex` is the pair of its real and imaginary parts.  `none` stands for undefined behaviour.
-/

namespace Verif.Approx
open Verif.Float

/-- The coefficients in src/math/float/cisf.h:6-12 -/
def cisC : List Nat := [0x3FEFFFFFFFF97C47, 0xBFDFFFFFFBDEE95E, 0x3FA55553A875B099, 0xBF56C078624DE457, 0x3EF9906FFD54E0DF]

/-- `cos_`, src/math/float/cisf.h:4-17 -/
def cisCos (x : Nat) : Nat := horner (b64.mul x x) cisC

/-- `cisf_`, src/math/float/cisf.h:19-36 -/
def cisf (t : Nat) : Option (Nat × Nat) :=
  (remPio2 t).map fun (k, r) =>
    let x := cisCos r
    let y := kernelSin r
    if u32 k % 4 = 1 then (b64.opp y, x)
    else if u32 k % 4 = 2 then (b64.opp x, b64.opp y)
    else if u32 k % 4 = 3 then (y, b64.opp x)
    else (x, y)

/-- `cosh` in src/math/float/csinhf.h:8 and src/math/float/ccoshf.h:8 -/
def coshOf (t : Nat) : Nat := b64.add (b64.mul half (b64.add t one)) (Arith.fdiv b64 half (b64.add t one))

/-- `sinh` in src/math/float/csinhf.h:9 and src/math/float/ccoshf.h:9; `copysign` takes the sign of the `float` -/
def sinhOf (t x : Nat) : Nat := b64.mul (b64.pack (b32.neg x) (b64.abs t)) (b64.add half (Arith.fdiv b64 half (b64.add t one)))

/-- `csinhf_`, src/math/float/csinhf.h:5-19; the difference `y - y` counts as true unless it compares equal to 0. -/
def csinhWide (x y : Nat) : Option (Nat × Nat) :=
  (expm1Wide (b32.abs x)).bind fun t =>
    (cisf y).map fun c =>
      if b32.eq y 0 then (narrow (sinhOf t x), y)
      else if ¬ b32.eq (b32.sub y y) 0 ∧ (b32.eq x 0 ∨ b32.abs x = b32.inf) then (x, b32.sub y y)
      else (narrow (b64.mul (sinhOf t x) c.1), narrow (b64.mul (coshOf t) c.2))

/-- `ccoshf_`, src/math/float/ccoshf.h:5-27 -/
def ccoshWide (x y : Nat) : Option (Nat × Nat) :=
  (expm1Wide (b32.abs x)).bind fun t =>
    (cisf y).map fun c =>
      if b32.eq y 0 then (narrow (coshOf t), b32.copysign 0 x ^^^ y)
      else if ¬ b32.eq (b32.sub y y) 0 ∧ b32.eq x 0 then (b32.sub y y, x)
      else if ¬ b32.eq (b32.sub y y) 0 ∧ b32.abs x = b32.inf then (b32.inf, b32.sub y y)
      else (narrow (b64.mul (coshOf t) c.1), narrow (b64.mul (sinhOf t x) c.2))

/-- `csinhf`, src/math/float/csinhf.c:3-6 -/
def csinhf (z : Nat × Nat) : Option (Nat × Nat) := csinhWide z.1 z.2

/-- `ccoshf`, src/math/float/ccoshf.c:3-6 -/
def ccoshf (z : Nat × Nat) : Option (Nat × Nat) := ccoshWide z.1 z.2

/-- `csinf`, src/math/float/csinf.c:3-8 -/
def csinf (z : Nat × Nat) : Option (Nat × Nat) := (csinhWide z.2 z.1).map fun w => (w.2, w.1)

/-- `ccosf`, src/math/float/ccosf.c:3-6 -/
def ccosf (z : Nat × Nat) : Option (Nat × Nat) := ccoshWide (b32.opp z.2) z.1

/-- 0.25 -/
def quarter : Nat := 0x3FD0000000000000

/-- `sinhcosh` in src/math/float/ctanhf.c:12; `copysign` takes the sign of the `float` -/
def tanhNum (t x : Nat) : Nat := b64.mul (b64.pack (b32.neg x) (b64.abs t)) (b64.add quarter (Arith.fdiv b64 quarter (b64.add t one)))

/-- `sinhsinh` in src/math/float/ctanhf.c:13 -/
def tanhSq (t : Nat) : Nat := Arith.fdiv b64 (b64.mul (b64.mul quarter t) t) (b64.add t one)

/-- `ctanhf`, src/math/float/ctanhf.c:6-31; 0x1p53.  The quotient of a complex and a real number divides both parts. -/
def ctanhf (z : Nat × Nat) : Option (Nat × Nat) :=
  (expm1Wide (b32.mul 0x40000000 (b32.abs z.1))).bind fun t =>
    (cisf z.2).map fun c =>
      if b32.isNaN z.1 ∧ b32.eq z.2 0 then z
      else if ¬ b32.eq (b32.sub z.2 z.2) 0 then
        if b32.abs z.1 = b32.inf then (b32.copysign 0x3F800000 z.1, 0) else (b32.sub z.2 z.2, b32.sub z.2 z.2)
      else if b64.le 0x4340000000000000 t then (b32.copysign 0x3F800000 z.1, narrow (Arith.fdiv b64 (b64.mul c.2 c.1) (b64.mul quarter t)))
      else
        let d := b64.add (tanhSq t) (b64.mul c.1 c.1)
        (narrow (Arith.fdiv b64 (tanhNum t z.1) d), narrow (Arith.fdiv b64 (b64.mul c.2 c.1) d))

/-- `ctanf`, src/math/float/ctanf.c:3-8 -/
def ctanf (z : Nat × Nat) : Option (Nat × Nat) := (ctanhf (z.2, z.1)).map fun w => (w.2, w.1)

end Verif.Approx
