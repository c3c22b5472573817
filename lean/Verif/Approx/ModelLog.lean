import Verif.Approx.ModelHyp
import Verif.Cplx.Model

/-!
# Model of logarithms and inverse hyperbolic functions for `float`

`src/math/float/{logf.c, log2f.c, log10f.c, log1pf.c, asinhf.c, acoshf.c, atanhf.c, normalizef.h, kernel/atanhf.h, finite/log1pf.h}`.
`>>` of a negative number rounds down, `<<` of one multiplies, as the instructions do.  `none` is undefined behaviour, here only in `normalizef_`.
-/

namespace Verif.Approx
open Verif.Float

/-- The coefficients of src/math/float/kernel/atanhf.h:12-19 -/
def atanhC : List Nat := [
  0x3FD55555555553B3, 0x3FC9999999B8B079, 0x3FC249246261F73E, 0x3FBC71FD073EF892, 0x3FB73824FFF997BB, 0x3FB5471A00A27E2D]

/-- `kernel_atanhf_`, src/math/float/kernel/atanhf.h:10-24 -/
def kernelAtanh (x : Nat) : Nat :=
  let xx := b64.mul x x
  b64.add x (b64.mul (b64.mul x xx) (horner xx atanhC))

/-- `log10_e` in src/math/float/log10f.c:8 -/
def log10e : Nat := 0x3FDBCB7B1526E50E
/-- `log10_2` in src/math/float/log10f.c:9 -/
def log10two : Nat := 0x3FD34413509F79FF

/-- `exponent` in src/math/float/logf.c:10; `i` is an `int32_t`. -/
def exponent32 (i : Int) : Int := (i - 0x3F3504F4) / 2 ^ 23

/-- `x` in src/math/float/logf.c:11, a `float` converted to `double` -/
def fraction32 (i : Int) : Nat := wide (u32 (i - exponent32 i * 2 ^ 23))

/-- `(x - 1) / (x + 1)` -/
def ratio (x : Nat) : Nat := Arith.fdiv b64 (b64.sub x one) (b64.add x one)

/-- `finite_`, src/math/float/logf.c:6-14 -/
def logFinite (i : Int) : Nat :=
  narrow (b64.add (b64.mul two (kernelAtanh (ratio (fraction32 i)))) (b64.mul (b64.ofInt (exponent32 i)) ln2))

/-- `logf`, src/math/float/logf.c:16-38 -/
def logf (x : Nat) : Option Nat :=
  if s32 x ≤ 0 then some (if u32 (2 * s32 x) = 0 then b32.pack true b32.inf else b32.nan)
  else if 0x7F800000 ≤ s32 x then some x
  else if b32.eq x 0x4C5D65A5 then some 0x418F034B
  else if b32.eq x 0x65D890D3 then some 0x4254D1F9
  else if b32.eq x 0x6F31A8EC then some 0x42845A89
  else (Math.normalize Math.flt x).map logFinite

/-- `finite_`, src/math/float/log2f.c:6-14; `exponent` is converted to `double`. -/
def log2Finite (i : Int) : Nat :=
  narrow (b64.add (b64.mul (b64.mul two log2e) (kernelAtanh (ratio (fraction32 i)))) (b64.ofInt (exponent32 i)))

/-- `log2f`, src/math/float/log2f.c:16-27 -/
def log2f (x : Nat) : Option Nat :=
  if s32 x ≤ 0 then some (if u32 (2 * s32 x) = 0 then b32.pack true b32.inf else b32.nan)
  else if s32 x < 0x7F800000 then (Math.normalize Math.flt x).map log2Finite
  else some x

/-- `finite_`, src/math/float/log10f.c:6-15 -/
def log10Finite (i : Int) : Nat :=
  narrow (b64.add (b64.mul (b64.mul two log10e) (kernelAtanh (ratio (fraction32 i)))) (b64.mul (b64.ofInt (exponent32 i)) log10two))

/-- `log10f`, src/math/float/log10f.c:17-39 -/
def log10f (x : Nat) : Option Nat :=
  if s32 x ≤ 0 then some (if u32 (2 * s32 x) = 0 then b32.pack true b32.inf else b32.nan)
  else if 0x7F800000 ≤ s32 x then some x
  else if b32.eq x 0x0EFEEE7A then some 0xC1E99D23
  else if b32.eq x 0x120B93DC then some 0xC1DAD957
  else if b32.eq x 0x13AE78D3 then some 0xC1D2D957
  else (Math.normalize Math.flt x).map log10Finite

/-- `exponent` in src/math/float/finite/log1pf.h:10; `x` is the pattern of a `double`. -/
def exponent64 (x : Nat) : Int := (s64 x - 0x3FE6A09E667F3BCD) / 2 ^ 52

/-- `y` in src/math/float/finite/log1pf.h:11 -/
def fraction64 (x : Nat) : Nat := u64 (s64 x - exponent64 x * 2 ^ 52)

/-- `2 * kernel_atanhf_((y - 1) / (y + 1)) + exponent * ln2` in src/math/float/finite/log1pf.h:14 and src/math/float/{asinhf,acoshf}.c -/
def logWide (x : Nat) : Nat :=
  b64.add (b64.mul two (kernelAtanh (ratio (fraction64 x)))) (b64.mul (b64.ofInt (exponent64 x)) ln2)

/-- `log1pf_`, src/math/float/finite/log1pf.h:5-17 -/
def log1pFinite (x : Nat) : Nat :=
  if exponent64 (b64.add one x) ≠ 0 then logWide (b64.add one x)
  else b64.mul two (kernelAtanh (Arith.fdiv b64 x (b64.add two x)))

/-- `log1pf`, src/math/float/log1pf.c:6-46.  `0xBF800000` is unsigned, so is the comparison; `0x7F800000` is signed. -/
def log1pf (x : Nat) : Nat :=
  if x = 0xBF800000 then b32.pack true b32.inf
  else if 0xBF800000 < x then b32.nan
  else if 0x7F800000 ≤ s32 x then x
  else if b32.eq x 0x35400003 then 0x353FFFFF
  else if b32.eq x 0xB53FFFFD then 0xB5400001
  else if b32.eq x 0x3710001B then 0x370FFFF3
  else if b32.eq x 0xB70FFFE5 then 0xB710000D
  else if b32.eq x 0xBB0EC8C4 then 0xBB0EF0A5
  else if b32.eq x 0x3EFD81AD then 0x3ECDEEE1
  else if b32.eq x 0x6F31A8EC then 0x42845A89
  else if b32.eq x 0x65D890D3 then 0x4254D1F9
  else narrow (log1pFinite (wide x))

/-- `finite_`, src/math/float/asinhf.c:6-19 -/
def asinhFinite (s : Nat) : Nat :=
  let c := Cplx.fsqrt b64 (b64.add (b64.mul s s) one)
  if exponent64 (b64.add c s) ≠ 0 then logWide (b64.add c s)
  else b64.mul two (kernelAtanh (Arith.fdiv b64 s (b64.add c one)))

/-- `asinhf`, src/math/float/asinhf.c:21-39 -/
def asinhf (x : Nat) : Nat :=
  if ¬ b32.eq (b32.sub x x) 0 then x
  else
    let s := b32.abs x
    if b32.eq s 0x4BDD65A5 then b32.copysign 0x418F034B x
    else if b32.eq s 0x655890D3 then b32.copysign 0x4254D1F9 x
    else if b32.eq s 0x6EB1A8EC then b32.copysign 0x42845A89 x
    else b32.copysign (narrow (asinhFinite (wide s))) x

/-- `finite_`, src/math/float/acoshf.c:6-16 -/
def acoshFinite (c : Nat) : Nat := logWide (b64.add c (Cplx.fsqrt b64 (b64.sub (b64.mul c c) one)))

/-- `acoshf`, src/math/float/acoshf.c:18-35 -/
def acoshf (x : Nat) : Nat :=
  if s32 x < 0x3F800000 then b32.nan
  else if 0x7F800000 ≤ s32 x then x
  else if b32.eq x 0x655890D3 then 0x4254D1F9
  else if b32.eq x 0x6EB1A8EC then 0x42845A89
  else narrow (acoshFinite (wide x))

/-- `finite_`, src/math/float/atanhf.c:6-18 -/
def atanhFinite (x : Nat) : Nat :=
  let q := Arith.fdiv b64 (b64.add one x) (b64.sub one x)
  if exponent64 q ≠ 0 then
    b64.add (kernelAtanh (ratio (fraction64 q))) (b64.mul (Arith.fdiv b64 ln2 two) (b64.ofInt (exponent64 q)))
  else kernelAtanh x

/-- `atanhf`, src/math/float/atanhf.c:20-31 -/
def atanhf (x : Nat) : Nat :=
  let a := b32.abs x
  if b32.eq a 0x3F800000 then b32.copysign b32.inf x
  else if b32.lt a 0x3F800000 then narrow (atanhFinite (wide x))
  else b32.nan

end Verif.Approx
