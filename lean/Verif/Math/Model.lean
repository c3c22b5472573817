import Verif.Float.Arith
import Verif.Base

/-!
# Model of the bit-level math functions

A `double` or `float` is its bit pattern, a natural number.  The functions of /repo/src/math/double and
/repo/src/math/float that differ only in their literals are modelled once, over a record of these literals.
Arithmetic on `double` and `float` and `fabs`, `copysign`, `trunc`, `rint` are WebAssembly instructions
(`METALLIC_FAST_ROUNDING` is defined there): these are the operations of `Verif/Float/Arith.lean`.

`none` is undefined behaviour: `__builtin_clz(0)`, `__builtin_ctz(0)`, division by zero, a shift count
outside the word, signed overflow, or a loop that does not end.  Left shifts of negative integers
(`exp << 52`) are multiplications, as in the compiler; right shifts of negative integers are arithmetic.
-/

namespace Verif.Math
open Verif.Float

/-- The literals of one floating-point type. -/
structure Lit where
  fmt : Fmt
  /-- bits of the integer type -/
  wd : Nat
  /-- position of the exponent field: `52` -/
  fb : Nat
  /-- `0x0010000000000000` -/
  min : Nat
  /-- `0x7FF0000000000000` -/
  inf : Nat
  /-- `__builtin_clzll(i) - 11` -/
  pad : Nat
  /-- fmod.h:47: `0x0020000000000000` -/
  thr : Nat
  /-- frexp.c:16: `1022` -/
  e0 : Nat
  /-- frexp.c:18: `0x3FE0000000000000`, also the literal `0.5` -/
  half : Nat
  /-- ilogb.c:14: `1011` -/
  sub : Nat
  /-- ilogb.c:17: `1023` -/
  bias : Nat
  /-- The literals `2 * DBL_MIN`, `2`, `4` and `8` as patterns. -/
  min2 : Nat
  two : Nat
  four : Nat
  eight : Nat

/-- /repo/src/math/double. -/
def dbl : Lit where
  fmt := b64
  wd := 64
  fb := 52
  min := 0x0010000000000000
  inf := 0x7FF0000000000000
  pad := 11
  thr := 0x0020000000000000
  e0 := 1022
  half := 0x3FE0000000000000
  sub := 1011
  bias := 1023
  min2 := 0x0020000000000000
  two := 0x4000000000000000
  four := 0x4010000000000000
  eight := 0x4020000000000000

/-- /repo/src/math/float. -/
def flt : Lit where
  fmt := b32
  wd := 32
  fb := 23
  min := 0x00800000
  inf := 0x7F800000
  pad := 8
  thr := 0x01000000
  e0 := 126
  half := 0x3F000000
  sub := 118
  bias := 127
  min2 := 0x01000000
  two := 0x40000000
  four := 0x40800000
  eight := 0x41000000

/-- `__builtin_clz`, `__builtin_clzll`. -/
def clz (W x : Nat) : Option Nat := if x = 0 then none else some (W - 1 - Nat.log2 x)

def ctzGo : Nat → Nat → Nat
  | 0, _ => 0
  | k + 1, x => if x % 2 = 1 then 0 else ctzGo k (x / 2) + 1

/-- `__builtin_ctzll`. -/
def ctz64 (x : Nat) : Option Nat := if x = 0 then none else some (ctzGo 64 x)

/-- Unsigned `%`. -/
def urem (a b : Nat) : Option Nat := if b = 0 then none else some (a % b)

/-- Unsigned `<<` in a word of `W` bits. -/
def shl (W a s : Nat) : Option Nat := if s < W then some (a * 2 ^ s % 2 ^ W) else none

/-- double/fmod.h:24-25: the loop, ending with the last remainder and the last exponent. -/
def remLoop (den space : Nat) : Nat → Nat → Nat → Option (Nat × Nat)
  | 0, _, _ => none
  | fuel + 1, exp, rem =>
    if space ≤ exp then
      (shl 64 rem space).bind fun s => (urem s den).bind fun r => remLoop den space fuel (exp - space) r
    else some (rem, exp)

/-- double/fmod.h:17-28. -/
def remshift (a b exp : Nat) : Option Nat :=
  (ctz64 b).bind fun t =>
  let shift := if t < exp then t else exp
  let den := b / 2 ^ shift
  (urem a den).bind fun r =>
  (clz 64 den).bind fun space =>
  (remLoop den space (exp + 1) (exp - shift) r).bind fun p =>
  (shl 64 p.1 p.2).bind fun s =>
  (urem s den).bind fun q => shl 64 q shift

/-- float/fmodf.h:14-15: the loop. -/
def remLoopf (b : Nat) : Nat → Nat → Option Nat
  | 0, rem => some rem
  | shift + 1, rem => (shl 64 rem 32).bind fun s => (urem s b).bind fun r => remLoopf b shift r

/-- float/fmodf.h:10-18. -/
def remshiftf (a b exp : Nat) : Option Nat :=
  (shl 64 a (exp % 32)).bind fun s =>
  (urem s b).bind fun r =>
  (remLoopf b (exp / 32) r).bind fun r => some (r % 2 ^ 32)

/-- double/fmod.h:5-10, float/fmodf.h:5-8. -/
def significand (L : Lit) (i : Nat) : Nat := (i % L.min) ||| L.min

/-- Left shift of a nonnegative signed integer; overflow is undefined. -/
def sshl (W a : Nat) (s : Int) : Option Nat :=
  if 0 ≤ s ∧ s < W ∧ a * 2 ^ s.toNat < 2 ^ (W - 1) then some (a * 2 ^ s.toNat) else none

/-- double/fmod.h:30-43, float/fmodf.h:20-31.  The low bits of `exp << 52` are 0, so `|` is `+`. -/
def load (L : Lit) (rem template : Nat) : Option Nat :=
  if rem = 0 then some rem
  else
    (clz L.wd rem).bind fun c =>
    let shift : Int := (c : Int) - L.pad
    let exp : Int := (template / 2 ^ L.fb : Nat) - shift
    (sshl L.wd rem shift).bind fun sig =>
    let normalized : Int := exp * 2 ^ L.fb + (sig % L.min : Nat)
    if normalized < L.min then
      if 0 ≤ 1 - exp ∧ 1 - exp < L.wd then some (sig / 2 ^ (1 - exp).toNat) else none
    else some normalized.toNat

/-- double/fmod.h:45-54, float/fmodf.h:33-39. -/
def finite (L : Lit) (rs : Nat → Nat → Nat → Option Nat) (a b : Nat) : Option Nat :=
  if b ≤ L.thr then
    if a ≤ L.thr then urem a b else rs (significand L a) b (a / 2 ^ L.fb - 1)
  else (rs (significand L a) (significand L b) (a / 2 ^ L.fb - b / 2 ^ L.fb)).bind fun r => load L r b

/-- double/fmod.h:56-70, float/fmodf.h:41-53. -/
def fmodG (L : Lit) (rs : Nat → Nat → Nat → Option Nat) (x y : Nat) : Option Nat :=
  let a := L.fmt.abs x
  let b := L.fmt.abs y
  if L.inf ≤ a ∨ L.inf < b ∨ b = 0 then some L.fmt.nan
  else if a < b then some x
  else (finite L rs a b).bind fun r => some (L.fmt.copysign r x)

/-- double/fmod.c. -/
def fmod (x y : Nat) : Option Nat := fmodG dbl remshift x y

/-- float/fmodf.c. -/
def fmodf (x y : Nat) : Option Nat := fmodG flt remshiftf x y

/-- A pattern as a signed integer (`reinterpret(int64_t, x)`). -/
def sgn (L : Lit) (x : Nat) : Int := if x < 2 ^ (L.wd - 1) then x else (x : Int) - 2 ^ L.wd

/-- A signed integer as a pattern; overflow of the type is undefined. -/
def unsgn (L : Lit) (i : Int) : Option Nat :=
  if -(2 ^ (L.wd - 1)) ≤ i ∧ i < 2 ^ (L.wd - 1) then some (i % 2 ^ L.wd).toNat else none

/-- double/nextafter.c:6-21, float/nextafterf.c:6-21. -/
def nextafter (L : Lit) (x y : Nat) : Option Nat :=
  if L.fmt.eq x y ∨ ¬ L.fmt.eq y y then some y
  else if ¬ L.fmt.eq x x then some x
  else if L.fmt.eq x 0 then some (L.fmt.copysign 1 y)
  else unsgn L (if sgn L y < sgn L x ∨ 2 ^ (L.wd - 1) ≤ x ^^^ y then sgn L x - 1 else sgn L x + 1)

/-- double/nexttoward.c:11-35, float/nexttowardf.c:7-27.  The conversions and comparisons of
`long double` are `__extenddftf2`, `__trunctfdf2`, `__lttf2` and so on. -/
def nexttoward (L : Lit) (x y : Nat) : Option Nat :=
  if ¬ b128.eq y y then some (b128.conv L.fmt y)
  else if ¬ L.fmt.eq x x then some x
  else
    let l := L.fmt.conv b128 x
    if b128.eq l y then some (b128.conv L.fmt y)
    else if L.fmt.eq x 0 then some (L.fmt.copysign 1 (b128.conv L.fmt y))
    else if (L.fmt.lt 0 x ∧ b128.lt y l) ∨ (L.fmt.lt x 0 ∧ b128.lt l y) then unsgn L (sgn L x - 1)
    else unsgn L (sgn L x + 1)

/-- double/normalize.h:21-28, float/normalizef.h:10-17. -/
def normalize (L : Lit) (i : Nat) : Option Int :=
  if i < L.min then
    (clz L.wd i).bind fun c =>
    let shift : Int := (c : Int) - L.pad
    (sshl L.wd i shift).bind fun s => some ((s : Int) - shift * 2 ^ L.fb)
  else some i

/-- double/frexp.c:6-19, float/frexpf.c:6-19. -/
def frexp (L : Lit) (x : Nat) : Option (Nat × Int) :=
  let i := L.fmt.abs x
  if i = 0 ∨ L.inf ≤ i then some (x, 0)
  else (normalize L i).bind fun i =>
    some (L.fmt.copysign ((i % (L.min : Int)).toNat ||| L.half) x, i / 2 ^ L.fb - L.e0)

/-- double/scalbn.h:7-27.  `0x1p-53` is `0x3CA0000000000000`. -/
def scalbn (x : Nat) (exp : Int) : Option Nat :=
  let i := b64.abs x
  if i = 0 ∨ 0x7FF0000000000000 ≤ i then some x
  else (normalize dbl i).bind fun i =>
    let biased := exp + i / 2 ^ 52
    if 0x7FF ≤ biased ∨ biased < -53 then
      some (b64.mul x (if exp < 0 then 0 else 0x7FF0000000000000))
    else
      let i := (i % 0x0010000000000000).toNat
      if 0 < biased then some (b64.copysign (i ||| biased.toNat * 2 ^ 52) x)
      else some (b64.mul (b64.copysign 0x3CA0000000000000 x) (i ||| (biased + 53).toNat * 2 ^ 52))

/-- float/scalbnf.h:5-14.  `DBL_MAX` and `0x1p-1023` as patterns. -/
def coeff (exp : Int) : Nat :=
  if 1024 ≤ exp then 0x7FEFFFFFFFFFFFFF
  else if exp < -1022 then 0x0008000000000000
  else (1023 + exp).toNat * 2 ^ 52

/-- float/scalbnf.h:16-19. -/
def scalbnf (x : Nat) (exp : Int) : Nat := b64.conv b32 (b64.mul (b32.conv b64 x) (coeff exp))

/-- double/ilogb.c:6-23, float/ilogbf.c:6-23; math.h:25-26: `FP_ILOGB0` is `INT_MIN`,
`FP_ILOGBNAN` is `INT_MAX`. -/
def ilogb (L : Lit) (x : Nat) : Option Int :=
  let word := L.fmt.abs x
  if word = 0 then some (-2147483648)
  else if word < L.min then (clz L.wd word).bind fun c => some (-((L.sub + c : Nat) : Int))
  else if word < L.inf then some ((word / 2 ^ L.fb : Nat) - (L.bias : Int))
  else some 2147483647

/-- double/logb.c:5-20, float/logbf.c:5-20. -/
def logb (L : Lit) (x : Nat) : Option Nat :=
  let word := L.fmt.abs x
  if word = 0 then some (L.fmt.opp L.inf)
  else if word < L.min then (clz L.wd word).bind fun c => some (L.fmt.ofInt (-((L.sub + c : Nat) : Int)))
  else if word < L.inf then some (L.fmt.ofInt ((word / 2 ^ L.fb : Nat) - (L.bias : Int)))
  else some word

/-- remainder.c:13-24, remquo.h:24-43: the last step, with the increment of the quotient. -/
def settle (L : Lit) (n d : Nat) : Nat × Nat :=
  let F := L.fmt
  if F.lt d L.min2 then
    if F.lt d (F.mul L.two n) then
      let n := F.sub n d
      if F.le d (F.mul L.two n) then (F.sub n d, 2) else (n, 1)
    else (n, 0)
  else if F.lt (F.mul L.half d) n then
    let n := F.sub n d
    if F.le (F.mul L.half d) n then (F.sub n d, 2) else (n, 1)
  else (n, 0)

/-- double/remainder.c:6-29, float/remainderf.c:6-29. -/
def remainderG (L : Lit) (fmod : Nat → Nat → Option Nat) (x y : Nat) : Option Nat :=
  let F := L.fmt
  (fmod (F.abs x) (F.mul L.two y)).bind fun n =>
    some ((if F.neg x then F.signBit else 0) ^^^ (settle L n (F.abs y)).1)

def remainder (x y : Nat) : Option Nat := remainderG dbl fmod x y
def remainderf (x y : Nat) : Option Nat := remainderG flt fmodf x y

/-- double/remquo.h:6-50, float/remquof.h:6-50: the remainder and `*quotient`. -/
def remquoG (L : Lit) (fmod : Nat → Nat → Option Nat) (x y : Nat) : Option (Nat × Int) :=
  let F := L.fmt
  (fmod (F.abs x) (F.mul L.eight y)).bind fun n =>
    let d := F.abs y
    let p4 := if F.le (F.mul L.four d) n then (F.sub n (F.mul L.four d), 4) else (n, 0)
    let p2 := if F.le (F.mul L.two d) p4.1 then (F.sub p4.1 (F.mul L.two d), p4.2 ||| 2) else p4
    let p := settle L p2.1 d
    let q : Int := (p2.2 + p.2 : Nat)
    some ((if F.neg x then F.signBit else 0) ^^^ p.1, if F.neg x then -q else q)

def remquo (x y : Nat) : Option (Nat × Int) := remquoG dbl fmod x y
def remquof (x y : Nat) : Option (Nat × Int) := remquoG flt fmodf x y

/-- double/round.h:3-9.  `1` is `0x3FF0000000000000`. -/
def round (x : Nat) : Nat :=
  let r := b64.abs x
  let i := b64.trunc r
  b64.copysign (b64.add i (if b64.le 0x3FE0000000000000 (b64.sub r i) then 0x3FF0000000000000 else 0)) x

/-- float/roundf.h:3-6. -/
def roundf (x : Nat) : Nat :=
  let d := b32.conv b64 x
  b64.conv b32 (b64.trunc (b64.add d (b64.copysign 0x3FE0000000000000 d)))

/-- `y >= MAX ? MAX : y > MIN ? (T)y : MIN` for a signed type of `n` bits: lround.c:9, llround.c:8,
lrint.c:8, llrint.c:8 and their float versions.  `MAX` is converted to `double` first. -/
def saturate (F : Fmt) (n : Nat) (y : Nat) : Int :=
  let max : Int := 2 ^ (n - 1) - 1
  let min : Int := -2 ^ (n - 1)
  if F.le (F.ofInt max) y then max
  else if F.lt (F.ofInt min) y then (if F.neg y then -(F.whole y : Int) else F.whole y)
  else min

/-- double/lround.c:5-10; `LONG_MAX < 0x1p52` on wasm32. -/
def lround (x : Nat) : Int := saturate b64 32 (b64.add x (b64.copysign 0x3FE0000000000000 x))

/-- float/lroundf.c:4-9. -/
def lroundf (x : Nat) : Int :=
  let d := b32.conv b64 x
  saturate b64 32 (b64.add d (b64.copysign 0x3FE0000000000000 d))

/-- double/llround.c:4-9. -/
def llround (x : Nat) : Int := saturate b64 64 (round x)

/-- float/llroundf.c:4-9. -/
def llroundf (x : Nat) : Int :=
  let d := b32.conv b64 x
  saturate b64 64 (b64.add d (b64.copysign 0x3FE0000000000000 d))

/-- double/lrint.c:4-9, float/lrintf.c. -/
def lrint (F : Fmt) (x : Nat) : Int := saturate F 32 (F.rint x)

/-- double/llrint.c:4-9, float/llrintf.c. -/
def llrint (F : Fmt) (x : Nat) : Int := saturate F 64 (F.rint x)

/-- double/modf.c:3-8, float/modff.c:3-8: the fraction and `*i`. -/
def modf (F : Fmt) (x : Nat) : Nat × Nat :=
  let i := F.trunc x
  (F.copysign (if F.abs x = F.inf then 0 else F.sub x i) x, i)

/-- double/fdim.c:1-4. -/
def fdim (F : Fmt) (x y : Nat) : Nat := if F.le x y then 0 else F.sub x y

/-- double/fmax.c:1-4. -/
def fmax (F : Fmt) (x y : Nat) : Nat := if F.le y x ∨ ¬ F.eq y y then x else y

/-- double/fmin.c:1-4. -/
def fmin (F : Fmt) (x y : Nat) : Nat := if F.le x y ∨ ¬ F.eq y y then x else y

/-! ### fma -/

/-- Truth of a `double`: `if (x)`. -/
def truth (x : Nat) : Bool := !(b64.eq x 0)

/-- double/split.h:4-10.  `0x1p27 + 1` is `0x41A0000002000000`. -/
def split (x : Nat) : Nat :=
  let s := b64.mul 0x41A0000002000000 x
  b64.add s (b64.sub x s)

/-- fma.c:21-34: the product and `*r`. -/
def fmaMul (a b : Nat) : Nat × Nat :=
  let a0 := split a
  let a1 := b64.sub a a0
  let b0 := split b
  let b1 := b64.sub b b0
  let u := b64.mul a0 b0
  let v := b64.add (b64.mul a0 b1) (b64.mul a1 b0)
  let y := b64.add u v
  (y, b64.add (b64.add (b64.sub u y) v) (b64.mul a1 b1))

/-- fma.c:36-43: the sum and `*r`. -/
def fmaAdd (a b : Nat) : Nat × Nat :=
  let y := b64.add a b
  let s := b64.sub y a
  (y, b64.add (b64.add (b64.sub s y) a) (b64.sub b s))

/-- fma.c:45-56. -/
def addOdd (a b : Nat) : Nat :=
  let p := fmaAdd a b
  if truth p.2 ∧ p.1 % 2 = 0 then (p.1 + 1 + (2 ^ 64 - (p.1 ^^^ p.2) / 2 ^ 62)) % 2 ^ 64 else p.1

/-- fma.c:58-69.  `1 - scale - (i << 1 >> 53)` is computed in 64 unsigned bits. -/
def addSub (a b : Nat) (scale : Int) : Option Nat :=
  let p := fmaAdd a b
  let i := p.1
  let s := if truth p.2 ∧ (1 - scale - ((i * 2 % 2 ^ 64 / 2 ^ 53 : Nat) : Int)) % 2 ^ 64 ≠ ((1 ^^^ (i % 2) : Nat) : Int)
    then (i + 1 + (2 ^ 64 - (i ^^^ p.2) / 2 ^ 63 * 2)) % 2 ^ 64 else i
  scalbn s scale

/-- shift.h:7-12. -/
def shiftExp (x : Nat) (n : Int) : Nat := (((x : Int) + n * 2 ^ 52) % 2 ^ 64).toNat

/-- fma.c:71-140.  `fegetround()` is always `FE_TONEAREST` on wasm; `frexp_` (fma.c:12-19) is `frexp`
without the test for zero and infinity, which are handled before. -/
def fma (a b c : Nat) : Option Nat :=
  if truth (b64.sub a a) ∨ truth (b64.sub b b) then some (b64.add (b64.mul a b) c)
  else if truth (b64.sub c c) then some c
  else if ¬ truth a ∨ ¬ truth b then some (b64.add (b64.mul a b) c)
  else if ¬ truth c then some (b64.mul a b)
  else
    (frexp dbl a).bind fun A => (frexp dbl b).bind fun B => (frexp dbl c).bind fun C =>
    let exp := A.2 + B.2
    let scale := C.2 - exp
    if 53 < scale then some c
    else
      let ab := fmaMul A.1 B.1
      let s := fmaAdd ab.1 (if -106 ≤ scale then shiftExp C.1 scale else b64.copysign 1 C.1)
      if ¬ truth s.1 then (scalbn ab.2 exp).bind fun t => some (b64.add (b64.add ab.1 C.1) t)
      else
        let adjusted := addOdd ab.2 s.2
        (ilogb dbl s.1).bind fun l =>
        if -1023 < exp + l then scalbn (b64.add s.1 adjusted) exp
        else addSub s.1 adjusted exp

/-- float/fmaf.h:5-23. -/
def fmaf (a b c : Nat) : Nat :=
  let c' := b32.conv b64 c
  let ab := b64.mul (b32.conv b64 a) (b32.conv b64 b)
  let s := b64.add ab c'
  if s % 2 ^ 29 ≠ 0x10000000 ∨ truth (b64.sub s s) ∨ b64.eq (b64.sub s ab) c' then b64.conv b32 s
  else b64.conv b32 ((s + 1 + (2 ^ 64 - (s ^^^ b64.add (b64.sub ab s) c') / 2 ^ 63 * 2)) % 2 ^ 64)

end Verif.Math
