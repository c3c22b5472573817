import Verif.Math.Model
import Verif.Arith.Model
import Verif.Base

/-!
# Model of exponential functions for `float`

`src/math/float/{expf.c, exp2f.c, expm1f.c, expm1f.h, expf.h, kernel/expf.h, kernel/exp2f.h}` and `src/math/double/shift.h`.
`float` arguments are promoted to `double` (`b32.conv b64`) where the C code computes in `double`.
Decimal constants are written as the patterns the compiler makes of them, the nearest ones.

A conversion of a NaN, an infinity or a number out of range to `int64_t` is undefined behaviour (C11 6.3.1.4): `none`.
`n << 52` for negative `n` is taken as multiplication by `2^52`, which is what the instruction does; C11 leaves it undefined.
-/

namespace Verif.Approx
open Verif.Float

/-- A `float` as a `double`. -/
def wide (x : Nat) : Nat := b32.conv b64 x

/-- A `double` as a `float`. -/
def narrow (x : Nat) : Nat := b64.conv b32 x

/-- `((c[k] * x + c[k-1]) * x + …) * x + c[0]` from left to right, in `double`. -/
def horner (x : Nat) : List Nat → Nat
  | [] => 0
  | [c] => c
  | c :: d :: cs => b64.add (b64.mul (horner x (d :: cs)) x) c

/-- The conversion of a floating-point number to `int64_t`: it drops the fraction. -/
def toInt64 (F : Fmt) (x : Nat) : Option Int :=
  if F.isFin x then chk64 (if F.neg x then -(F.whole x : Int) else F.whole x) else none

/-- `shift_`, src/math/double/shift.h:7-12.  The pattern is an `int64_t`; the sum is `none` if it overflows. -/
def shift (x : Nat) (n : Int) : Option Nat := (chk64 (s64 x + s64 (u64 (n * 2 ^ 52)))).map fun i => u64 i

/-- The coefficients of src/math/float/kernel/expf.h:11-23 -/
def expC : List Nat := [
  0x3FF0000000000000, 0x3FE0000000000005, 0x3FC5555555555540, 0x3FA555555555211A, 0x3F811111111173CC, 0x3F56C16C17F2A70F,
  0x3F2A01A017EE7F13, 0x3EFA019A6B0B0206, 0x3EC71DE71735C55F, 0x3E928A27F8516605, 0x3E5AE902082B73E6]

/-- `kernel_expf_`, src/math/float/kernel/expf.h:9-26 -/
def kernelExp (x : Nat) : Nat := b64.mul x (horner x expC)

/-- 1.4426950408889634 -/
def log2e : Nat := 0x3FF71547652B82FE
/-- 0.6931471805601177 -/
def ln2hi : Nat := 0x3FE62E42FEFA4000
/-- -1.7239444525614835e-13 -/
def ln2lo : Nat := 0xBD48432A1B0E2634
/-- 0.6931471805599453094 -/
def ln2 : Nat := 0x3FE62E42FEFA39EF
/-- The `double` 1. -/
def one : Nat := 0x3FF0000000000000
/-- FLT_MAX -/
def fltMax : Nat := 0x7F7FFFFF

/-- `expf`, src/math/float/expf.c:6-28; -103.97207708399179 and 88.7228391116729996 -/
def expf (x : Nat) : Option Nat :=
  if b64.lt (wide x) 0xC059FE3682CD3BE4 then some 0
  else if b64.lt 0x40562E42FEFA39EF (wide x) then some (narrow (b64.mul 0x40562E42FEFA39EF (wide fltMax)))
  else
    let n := b64.rint (b64.mul (wide x) log2e)
    let r := b64.sub (wide x) (b64.mul n ln2hi)
    let y := b64.add one (kernelExp (b64.sub r (b64.mul n ln2lo)))
    (toInt64 b64 n).bind fun k => (shift y k).map narrow

/-- The coefficients of src/math/float/kernel/exp2f.h:7-18 -/
def exp2C : List Nat := [
  0x3FE62E42FEFA3A17, 0x3FCEBFBDFF82C472, 0x3FAC6B08D703D59E, 0x3F83B2AB6FBCE3BC, 0x3F55D87FE9CAB51F,
  0x3F243091283E2AD1, 0x3EEFFCB562818C22, 0x3EB62C111D5715E8, 0x3E7B673DAD8ADAB8, 0x3E3E3FDE42662D5A]

/-- `kernel_exp2f_`, src/math/float/kernel/exp2f.h:5-21 -/
def kernelExp2 (x : Nat) : Nat := b64.mul x (horner x exp2C)

/-- `exp2f`, src/math/float/exp2f.c:6-25.  `x < -150` and `x - n` are operations on `float`. -/
def exp2f (x : Nat) : Option Nat :=
  if b32.lt x 0xC3160000 then some 0
  else if b32.lt 0x43000000 x then some (b32.mul 0x43000000 fltMax)
  else if b32.eq x 0x3B429D37 then some 0x3F804385
  else if b32.eq x 0xBCF3A937 then some 0x3F7AC6B1
  else
    let n := b32.rint x
    let y := b64.add one (kernelExp2 (wide (b32.sub x n)))
    (toInt64 b32 n).bind fun k => (shift y k).map narrow

/-- `expm1f_`, src/math/float/expm1f.h:8-34; -37.42994775023704671 and 709.78271289338399684.  `x * HUGE_VAL` with the `double` infinity;
`log2e` is a `float` and so is `n`; `+ 0` turns a negative zero into a positive one. -/
def expm1Wide (x : Nat) : Option Nat :=
  if b64.lt (wide x) 0xC042B708872320E2 then some 0xBFF0000000000000
  else if b64.lt 0x40862E42FEFA39EF (wide x) then some (b64.mul (wide x) b64.inf)
  else
    let n := b32.add (b32.rint (b32.mul x 0x3FB8AA3B)) 0
    let y := kernelExp (b64.sub (wide x) (b64.mul (wide n) ln2))
    if b32.eq n 0 then some y
    else (toInt64 b32 n).bind fun k => (shift (b64.add y one) k).map fun z => b64.sub z one

/-- `expm1f`, src/math/float/expm1f.c:3-12; 88.7228391116729996f -/
def expm1f (x : Nat) : Option Nat :=
  if b32.lt 0x42B17218 x then some b32.inf else (expm1Wide x).map narrow

/-- `expf_`, src/math/float/expf.h:8-27; -708.39641853226410622 and 709.78271289338399684 -/
def expWide (x : Nat) : Option Nat :=
  if b64.lt x 0xC086232BDD7ABCD2 then some 0
  else if b64.lt 0x40862E42FEFA39EF x then some (b64.mul x b64.inf)
  else
    let n := b64.rint (b64.mul x log2e)
    let y := b64.add one (kernelExp (b64.sub x (b64.mul n ln2)))
    (toInt64 b64 n).bind fun k => shift y k

end Verif.Approx
