import Verif.Approx.ModelAtan2
import Verif.Approx.ModelLog
import Verif.Approx.ModelPow
import Verif.Cplx.Model

/-!
# Model of the complex logarithm, square root and inverse functions in `float`

`src/math/float/{clogf.c, csqrtf.c, catanf.h, catanf.c, catanhf.c, casinhf.h, casinhf.c, casinf.c, cacoshf.h, cacoshf.c, cacosf.c, dd.h, finite/cashf.h,
finite/csqrt.h}`.  A complex number is a pair of patterns.  `NAN` is the canonical NaN, as is every NaN computed by an operation.
-/

namespace Verif.Approx
open Verif.Float

/-- `round_dd_signed_`, src/math/float/dd.h:131-136 -/
def roundDdSigned (v : Dd) : Nat :=
  if b64.lt v.1 0 ∨ (b64.eq v.1 0 ∧ b64.lt v.2 0) then b32.opp (roundDdGeneral (b64.opp v.1, b64.opp v.2)) else roundDdGeneral v

/-- `dd_sqrt_`, src/math/float/dd.h:67-77 -/
def ddSqrt (s : Dd) : Option Dd :=
  if b64.le s.1 0 then some (0, 0)
  else
    let r := Cplx.fsqrt b64 s.1
    (ddProduct r r).map fun r2 =>
      let res := ddAdd s (b64.opp r2.1, b64.opp r2.2)
      ddSum r (Arith.fdiv b64 (b64.add res.1 res.2) (b64.mul two r))

/-- `dd_div_`, src/math/float/dd.h:80-87 -/
def ddDiv (a b : Dd) : Option Dd :=
  let q := Arith.fdiv b64 a.1 b.1
  (ddMul1 b q).map fun qb =>
    let res := ddAdd a (b64.opp qb.1, b64.opp qb.2)
    ddSum q (Arith.fdiv b64 (b64.add res.1 res.2) b.1)

/-- `clogf_half_ln2_`, src/math/float/clogf.c:7 -/
def halfLn2 : Dd := (0x3FD62E42FEFA39EF, 0x3C6ABC9E3B39803F)

/-- `clogf_re_`, src/math/float/clogf.c:15-34 -/
def clogRe (x y : Nat) : Option Nat :=
  let a := b64.abs (wide x)
  let b := b64.abs (wide y)
  if b64.eq a b64.inf ∨ b64.eq b b64.inf then some b32.inf
  else
    let s := ddSum (b64.mul a a) (b64.mul b b)
    if b64.eq s.1 0 then some (b32.pack true b32.inf)
    else if b64.isNaN s.1 then some b32.nan
    else (log2Dd s.1).bind fun l => (ddMul l halfLn2).map fun re => roundDdSigned (ddAdd re (b64.mul half (Arith.fdiv b64 s.2 s.1), 0))

/-- `clogf`, src/math/float/clogf.c:36-42 -/
def clogf (z : Nat × Nat) : Option (Nat × Nat) := (clogRe z.1 z.2).bind fun re => (atan2f z.2 z.1).map fun im => (re, im)

/-- `csqrtf_ziv_`, src/math/float/csqrtf.c:10-20.  `0x1p127` is `0x47E0000000000000`; `dist` has no more than 30 bits. -/
def csqrtZiv (v : Nat) : Bool :=
  let a := b64.abs v
  b64.le fltMin a && b64.lt a 0x47E0000000000000 && decide (0x2000 < ((v % 2 ^ 29 : Nat) - 0x10000000 : Int).natAbs)

/-- `csqrtf_finite_`, src/math/float/csqrtf.c:28-59 -/
def csqrtfFinite (x y : Nat) : Option (Nat × Nat) :=
  let ax := b64.abs x
  let ay := b64.abs y
  let m := Cplx.fsqrt b64 (b64.add (b64.mul x x) (b64.mul y y))
  let big := Cplx.fsqrt b64 (b64.mul half (b64.add ax m))
  let small := Arith.fdiv b64 (b64.mul half ay) big
  let r : Option (Nat × Nat) :=
    if csqrtZiv big && csqrtZiv small then some (narrow big, narrow small)
    else
      (ddSqrt (ddSum (b64.mul x x) (b64.mul y y))).bind fun mm =>
        let bigsq := ddAdd mm (ax, 0)
        (ddSqrt (b64.mul bigsq.1 half, b64.mul bigsq.2 half)).bind fun b =>
          (ddDiv (b64.mul half ay, 0) b).map fun t => (roundDdGeneral b, roundDdGeneral t)
  r.map fun r => if b64.neg x then (r.2, b32.copysign r.1 (narrow y)) else (r.1, b32.copysign r.2 (narrow y))

/-- `csqrtf`, src/math/float/csqrtf.c:61-82 -/
def csqrtf (z : Nat × Nat) : Option (Nat × Nat) :=
  let x := z.1
  let y := z.2
  if b32.eq x 0 ∧ b32.eq y 0 then some (0, y)
  else if b32.abs y = b32.inf then some (b32.inf, y)
  else if b32.eq x b32.inf then some (x, b32.mul 0 y)
  else if b32.eq x (b32.pack true b32.inf) then some (b32.sub y y, b32.copysign x y)
  else if b32.isNaN x ∨ b32.isNaN y then some (b32.nan, b32.nan)
  else csqrtfFinite (wide x) (wide y)

/-- `finite_catanf_`, src/math/float/catanf.h:5-14.  The constant 4 is `0x4010000000000000`; `0.5f` and `0.25f` are factors in `float`. -/
def catanFinite (x y : Nat) : Option (Nat × Nat) :=
  let xx := b64.mul x x
  let yy := b64.mul y y
  let t := b64.sub y one
  (atan2Wide (b64.mul two x) (b64.sub (b64.sub one xx) yy)).map fun a =>
    let b := narrow (log1pFinite (Arith.fdiv b64 (b64.mul 0x4010000000000000 y) (b64.add xx (b64.mul t t))))
    (b32.mul 0x3F000000 a, b32.mul 0x3E800000 b)

/-- `catanf_`, src/math/float/catanf.h:16-36.  `pi_2` is `0x3FC90FDB`. -/
def catanFirst (x y : Nat) : Option (Nat × Nat) :=
  if b32.eq x b32.inf then some (0x3FC90FDB, 0)
  else if b32.eq y b32.inf then some (if b32.eq x x then 0x3FC90FDB else x, 0)
  else if b32.eq x 0 ∧ b32.eq y 0x3F800000 then some (0, b32.inf)
  else if ¬ b32.eq y y then some (y, y)
  else if ¬ b32.eq x x then some (x, if ¬ b32.eq y 0 then x else y)
  else catanFinite (wide x) (wide y)

/-- `catanf`, src/math/float/catanf.c:3-10 -/
def catanf (z : Nat × Nat) : Option (Nat × Nat) :=
  (catanFirst (b32.abs z.1) (b32.abs z.2)).map fun w => (b32.copysign w.1 z.1, b32.copysign w.2 z.2)

/-- `catanhf`, src/math/float/catanhf.c:3-10 -/
def catanhf (z : Nat × Nat) : Option (Nat × Nat) :=
  (catanFirst (b32.abs z.2) (b32.abs z.1)).map fun w => (b32.copysign w.2 z.1, b32.copysign w.1 z.2)

/-- `real_clogf_`, src/math/float/finite/cashf.h:8-17 -/
def cashLog (x y : Nat) : Nat :=
  let i := b64.add (b64.mul x x) (b64.mul y y)
  b64.add (kernelAtanh (ratio (fraction64 i))) (b64.mul 0x3FD62E42FEFA39EF (b64.ofInt (exponent64 i)))

/-- `carg_`, src/math/float/finite/cashf.h:19-24 -/
def cashArg (x y : Nat) : Nat :=
  if b64.lt x y then b64.sub pi2 (kernelAtan (Arith.fdiv b64 x y)) else kernelAtan (Arith.fdiv b64 y x)

/-- `cashf_`, src/math/float/finite/cashf.h:31-64.  The constant 4 is `0x4010000000000000`. -/
def cash (x y : Nat) (arg : Nat → Nat → Nat) : Nat × Nat :=
  let xx := b64.mul x x
  let yy := b64.mul y y
  if b64.lt x half ∧ b64.lt y one then
    let s := b64.mul xx (b64.add (b64.add two xx) (b64.mul two yy))
    let t := b64.sub one yy
    let u := b64.add (Cplx.fsqrt b64 (b64.add s (b64.mul t t))) t
    let dx := Cplx.fsqrt b64 (b64.mul half (b64.add u xx))
    let dy := Arith.fdiv b64 (b64.mul x y) dx
    (b64.mul half (log1pFinite (b64.add (b64.add xx (Arith.fdiv b64 s u)) (b64.mul two (b64.add (b64.mul x dx) (b64.mul y dy))))),
      arg (b64.add x dx) (b64.add y dy))
  else if b64.lt x half ∧ b64.eq y one then
    let r := b64.mul x (Cplx.fsqrt b64 (b64.add 0x4010000000000000 xx))
    let dx := Cplx.fsqrt b64 (b64.mul half (b64.add r xx))
    let dy := Cplx.fsqrt b64 (b64.mul half (b64.sub r xx))
    (b64.mul half (log1pFinite (b64.add (b64.add xx r) (b64.mul two (b64.add (b64.mul x dx) dy)))), arg (b64.add x dx) (b64.add one dy))
  else
    let w := Cplx.csqrtFinite (b64.add (b64.sub xx yy) one) (b64.mul (b64.mul two x) y)
    let re := b64.add x w.1
    let im := b64.add y w.2
    (cashLog re im, arg re im)

/-- `pi / 4` in src/math/float/{casinhf.h:8, cacoshf.h:13} -/
def quarterPi : Nat := 0x3FE921FB54442D18

/-- `casinhf_`, src/math/float/casinhf.h:3-17; every result is converted to `float`. -/
def casinhFirst (x y : Nat) : Nat × Nat :=
  if b32.eq x b32.inf then (b32.inf, if b32.eq y b32.inf then narrow quarterPi else b32.mul 0 y)
  else if b32.eq y b32.inf then (b32.inf, if b32.eq x x then narrow pi2 else x)
  else if b32.isNaN x ∨ b32.isNaN y then (b32.nan, if ¬ b32.eq y 0 then b32.nan else 0)
  else
    let w := cash (wide x) (wide y) cashArg
    (narrow w.1, narrow w.2)

/-- `casinhf`, src/math/float/casinhf.c:3-10 -/
def casinhf (z : Nat × Nat) : Nat × Nat :=
  let w := casinhFirst (b32.abs z.1) (b32.abs z.2)
  (b32.copysign w.1 z.1, b32.copysign w.2 z.2)

/-- `casinf`, src/math/float/casinf.c:3-10 -/
def casinf (z : Nat × Nat) : Nat × Nat :=
  let w := casinhFirst (b32.abs z.2) (b32.abs z.1)
  (b32.copysign w.2 z.1, b32.copysign w.1 z.2)

/-- `cacoshf_`, src/math/float/cacoshf.h:8-22; the result is a pair of `double` numbers.  `atan2_` is `carg_` with its arguments exchanged. -/
def cacoshFirst (x y : Nat) : Nat × Nat :=
  if b32.eq x b32.inf then (b64.inf, if b32.eq y b32.inf then quarterPi else wide (b32.mul 0 y))
  else if b32.eq y b32.inf then (b64.inf, if b32.eq x x then pi2 else wide x)
  else if b32.isNaN x ∨ b32.isNaN y then (b64.nan, if ¬ b32.eq x 0 then b64.nan else pi2)
  else cash (wide y) (wide x) fun a b => cashArg b a

/-- `cimag(first) - (x < 0) * pi` in src/math/float/{cacoshf.c:12, cacosf.c:12} -/
def cacosAngle (im x : Nat) : Nat := b64.sub im (b64.mul (b64.ofInt (if b32.lt x 0 then 1 else 0)) pi1)

/-- `cacoshf`, src/math/float/cacoshf.c:3-13 -/
def cacoshf (z : Nat × Nat) : Nat × Nat :=
  let w := cacoshFirst (b32.abs z.1) (b32.abs z.2)
  (narrow w.1, b32.copysign (narrow (cacosAngle w.2 z.1)) z.2)

/-- `cacosf`, src/math/float/cacosf.c:3-13.  The real part of `first` is converted to `float` by the call of `copysignf`. -/
def cacosf (z : Nat × Nat) : Nat × Nat :=
  let w := cacoshFirst (b32.abs z.1) (b32.abs z.2)
  (narrow (b64.abs (cacosAngle w.2 z.1)), b32.copysign (narrow w.1) (b32.opp z.2))

end Verif.Approx
