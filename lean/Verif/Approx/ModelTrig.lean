import Verif.Approx.ModelCbrt

/-!
# Model of trigonometric functions for `float`

`src/math/float/{atanf.c, asinf.c, acosf.c, sinf.c, cosf.c, tanf.c, rem_pio2f.c, kernel/atanf.h, kernel/asin.h, kernel/sinf.h, kernel/sincosf.h}`.
Decimal constants are written as the patterns the compiler makes of them, the nearest ones.  `none` is undefined behaviour, here only a
conversion of a `double` out of range to `int`.
-/

namespace Verif.Approx
open Verif.Float

/-- 1.57079632679489661923 -/
def pi2 : Nat := 0x3FF921FB54442D18
/-- 3.14159265358979323846 -/
def pi1 : Nat := 0x400921FB54442D18

/-- `n` in src/math/float/kernel/atanf.h:4-12 -/
def atanN : List Nat := [0x3FD51ECCDFCAC2D3, 0x3FEA76BB574FD358, 0x3FE81E0EECD7A39E, 0x3FD376C8C8D7F7B0, 0x3FAAEC7B648CDAE0, 0x3F6956189256FDDE, 0x3EFBF9FA4ECFDE22]
/-- `d` in src/math/float/kernel/atanf.h:14-22 -/
def atanD : List Nat := [0x3FD51ECCDFCAC2D2, 0x3FEDFBDD7C9C4920, 0x3FF0000000000000, 0x3FDFD22BEF0B32EC, 0x3FBD91FF875E6750, 0x3F8653EA94C28D88, 0x3F31E7FCBB6E641C]

/-- `kernel_atanf_`, src/math/float/kernel/atanf.h:2-29 -/
def kernelAtan (x : Nat) : Nat :=
  let xx := b64.mul x x
  Arith.fdiv b64 (b64.mul x (horner xx atanN)) (horner xx atanD)

/-- `atanf`, src/math/float/atanf.c:4-9.  `copysign(pi_2, x)` takes the sign of the `float`. -/
def atanf (x : Nat) : Nat :=
  narrow (if b32.lt 0x3F800000 (b32.abs x) then b64.sub (b64.pack (b32.neg x) pi2) (kernelAtan (Arith.fdiv b64 one (wide x))) else kernelAtan (wide x))

/-- `kernel_asin_`, src/math/float/kernel/asin.h:19-49 -/
def kernelAsin (t u : Nat) : Nat :=
  let u2 := b64.mul u u
  let u4 := b64.mul u2 u2
  let u8 := b64.mul u4 u4
  let p01 := b64.add 0x3FC55555555555C2 (b64.mul u 0x3FB33333333004C3)
  let p23 := b64.add 0x3FA6DB6DBAC8181C (b64.mul u 0x3F9F1C6FE544A91A)
  let p45 := b64.add 0x3F96E8F53473F0A8 (b64.mul u 0x3F91C0BA7D4115EE)
  let p67 := b64.add 0x3F8CF7FC18E38CA0 (b64.mul u 0x3F8507172F1B62BE)
  let p89 := b64.add 0x3F8FC979DA826000 (b64.mul u 0xBF7C87CDF2909242)
  let p03 := b64.add p01 (b64.mul u2 p23)
  let p47 := b64.add p45 (b64.mul u2 p67)
  let p8a := b64.add p89 (b64.mul u2 0x3F9CA87A18BC0B31)
  let p := b64.add (b64.add p03 (b64.mul u4 p47)) (b64.mul u8 p8a)
  b64.add t (b64.mul (b64.mul t u) p)

/-- `two` in src/math/float/asinf.c:21-22 and src/math/float/acosf.c:27-28: twice the arcsine of the square root of `(1 - a) / 2` -/
def asinTwo (a : Nat) : Nat :=
  let u := b64.mul half (b64.sub one a)
  b64.mul two (kernelAsin (Cplx.fsqrt b64 u) u)

/-- `asinf`, src/math/float/asinf.c:4-25 -/
def asinf (x : Nat) : Nat :=
  let a := b64.abs (wide x)
  if b64.lt a half then narrow (kernelAsin (wide x) (b64.mul (wide x) (wide x)))
  else if b32.eq (b32.abs x) 0x3F083A1A then b32.copysign 0x3F0FA5B2 x
  else b32.copysign (narrow (b64.sub pi2 (asinTwo a))) x

/-- `acosf`, src/math/float/acosf.c:4-31 -/
def acosf (x : Nat) : Nat :=
  let a := b64.abs (wide x)
  if b64.lt a half then
    if b32.eq x 0x328885A3 then 0x3FC90FDB
    else if b32.eq x 0x39826222 then 0x3FC907B5
    else narrow (b64.sub pi2 (kernelAsin (wide x) (b64.mul (wide x) (wide x))))
  else narrow (if b32.lt 0 x then asinTwo a else b64.sub pi1 (asinTwo a))

/-- `bits` in src/math/float/rem_pio2f.c:8: 256 bits of 2/π -/
def pioBits : List Nat := [0xA2F9836E4E441529, 0xFC2757D1F534DDC0, 0xDB6295993C439041, 0xFE5163ABDEBBC561]

/-- `*low` of `segment_`, src/math/float/rem_pio2f.c:13; a `uint32_t` -/
def segmentLow (offset : Nat) : Nat :=
  let index := offset / 64
  let shift := offset % 64
  (if 32 < shift then pioBits.getD (index + 2) 0 / 2 ^ (96 - shift) ||| pioBits.getD (index + 1) 0 * 2 ^ (shift - 32) % 2 ^ 64
    else pioBits.getD (index + 1) 0 / 2 ^ (32 - shift)) % 2 ^ 32

/-- `segment_`, src/math/float/rem_pio2f.c:6-15 -/
def segmentHigh (offset : Nat) : Nat :=
  let index := offset / 64
  let shift := offset % 64
  if shift ≠ 0 then pioBits.getD (index + 1) 0 / 2 ^ (64 - shift) ||| pioBits.getD index 0 * 2 ^ shift % 2 ^ 64 else pioBits.getD index 0

/-- `pi_2[0]` in src/math/float/rem_pio2f.c:29 -/
def pi2hi : Nat := 0x3FF921FB50000000
/-- `pi_2[1]` -/
def pi2lo : Nat := 0x3E5110B4611A6263
/-- 0.63661977236758134308 -/
def twoPi : Nat := 0x3FE45F306DC9C883
/-- 8.51530395021638647334e-20, π / 2^65 -/
def piTiny : Nat := 0x3BF921FB54442D18

/-- `product` in src/math/float/rem_pio2f.c:51, for the magnitude `m` -/
def pioProduct (m : Nat) : Nat :=
  let offset := m / 2 ^ 23 - 152
  let significand := m % 2 ^ 23 + 2 ^ 23
  (significand * segmentHigh offset + significand * segmentLow offset / 2 ^ 32) % 2 ^ 64

/-- The path for large arguments, src/math/float/rem_pio2f.c:46-58 -/
def remLarge (x : Nat) : Int × Nat :=
  let product := pioProduct (b32.abs x)
  let r := s64 (product * 4 % 2 ^ 64)
  let q : Int := product / 2 ^ 62 + if r < 0 then 1 else 0
  (if b32.neg x then -q else q, b64.mul (b64.pack (b32.neg x) piTiny) (b64.ofInt r))

/-- `__rem_pio2f`, src/math/float/rem_pio2f.c:27-59; the `int` returned and `*y` -/
def remPio2 (x : Nat) : Option (Int × Nat) :=
  if b32.abs x < 0x4DC90FDB then
    let q := b64.add (b64.rint (b64.mul twoPi (wide x))) 0
    (toInt64 b64 q).bind fun k => (chk32 k).map fun k =>
      (k, b64.sub (b64.sub (wide x) (b64.mul q pi2hi)) (b64.mul q pi2lo))
  else if 0x7F800000 ≤ b32.abs x then some (0, wide (b32.sub x x))
  else some (remLarge x)

/-- The coefficients of src/math/float/kernel/sincosf.h:5-13 -/
def cosC : List Nat := [0x3FF0000000000000, 0xBFDFFFFFFFFFFFA0, 0x3FA555555554F800, 0xBF56C16C1647B026, 0x3EFA019F879581CA, 0xBE927DF6880F96CC, 0x3E21B951C4AA36EC]
/-- The coefficients of src/math/float/kernel/sinf.h:3-10 -/
def sinC : List Nat := [0xBFC5555555555548, 0x3F8111111110F75C, 0xBF2A01A019BF2048, 0x3EC71DE355EF443E, 0xBE5AE5E546D6A6EB, 0x3DE5D8E365902310]

/-- `kernel_cosf_`, src/math/float/kernel/sincosf.h:3-18 -/
def kernelCos (x : Nat) : Nat := horner (b64.mul x x) cosC

/-- `kernel_sinf_`, src/math/float/kernel/sinf.h:1-15 -/
def kernelSin (x : Nat) : Nat :=
  let xx := b64.mul x x
  b64.add x (b64.mul (b64.mul x xx) (horner xx sinC))

/-- `sinf`, src/math/float/sinf.c:3-22 -/
def sinf (x : Nat) : Option Nat :=
  if b32.eq x 0 then some x
  else if b32.eq x 0x46199998 then some 0xBEB1FA5D
  else if b32.eq x 0xC6199998 then some 0x3EB1FA5D
  else (remPio2 x).map fun (k, y) =>
    let q := u32 k
    let z := if q % 2 = 1 then kernelCos y else kernelSin y
    narrow (if q / 2 % 2 = 1 then b64.opp z else z)

/-- `cosf`, src/math/float/cosf.c:3-21 -/
def cosf (x : Nat) : Option Nat :=
  if b32.eq x 0x7908CD73 ∨ b32.eq x 0xF908CD73 then some 0x3F798BB5
  else if b32.eq x 0x6115CB11 ∨ b32.eq x 0xE115CB11 then some 0x3F78142F
  else if b32.eq x 0x5F18B878 ∨ b32.eq x 0xDF18B878 then some 0x3F7F14BB
  else (remPio2 x).map fun (k, y) =>
    let q := u32 k
    let z := if q % 2 = 1 then kernelSin y else kernelCos y
    narrow (if (q + 1) / 2 % 2 = 1 then b64.opp z else z)

/-- `num` in src/math/float/tanf.c:21-26 -/
def tanN : List Nat := [0x3FF0000000000000, 0xBFC06B8EC6FE0678, 0x3F66FC2FECB35A93, 0xBEDF624090DAF722]
/-- `den` in src/math/float/tanf.c:27-32 -/
def tanD : List Nat := [0x3FF0000000000000, 0xBFDD8B1CB8D4586E, 0x3F97E796A424CDF8, 0xBF2B51C81DF38E70]

/-- `tanf`, src/math/float/tanf.c:19-42 -/
def tanf (x : Nat) : Option Nat :=
  (remPio2 x).map fun (k, y) =>
    let u := b64.mul y y
    let d := horner u tanD
    let yp := b64.mul y (horner u tanN)
    narrow (if u32 k % 2 = 1 then Arith.fdiv b64 (b64.opp d) yp else Arith.fdiv b64 yp d)

end Verif.Approx
