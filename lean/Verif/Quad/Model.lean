import Verif.Math.Model
import Verif.Int128.FloatModel

/-!
# Model of the binary128 (`long double`) runtime

/repo/src/soft/float and /repo/src/math/long-double.  A `long double` is its 128-bit pattern.
`unsigned __int128` arithmetic is arithmetic of naturals with `%` where a result can leave the range;
`none` is undefined behaviour: a shift count of 128 or more, `__builtin_clzll(0)`, signed overflow, or a
floating-point value outside the integer type it is converted to.  Arithmetic on `double` is the WebAssembly
instruction (`Verif/Float/Arith.lean`).
-/

namespace Verif.Quad
open Verif.Float Verif.Int128

/-- The literals of `long double`, for the code that is the same at all widths (normalizel.h). -/
def ldbl : Math.Lit where
  fmt := b128
  wd := 128
  fb := 112
  min := 0x00010000000000000000000000000000
  inf := 0x7FFF0000000000000000000000000000
  pad := 15
  thr := 0x00020000000000000000000000000000
  e0 := 16382
  half := 0x3FFE0000000000000000000000000000
  sub := 16367
  bias := 16383
  min2 := 0x00020000000000000000000000000000
  two := 0x40000000000000000000000000000000
  four := 0x40010000000000000000000000000000
  eight := 0x40020000000000000000000000000000

/-- A truth value as an integer. -/
def bit (p : Prop) [Decidable p] : Nat := if p then 1 else 0

/-- `unsigned __int128` shifted left. -/
def shl (x s : Nat) : Option Nat := if s < 128 then some (x * 2 ^ s % 2 ^ 128) else none

/-- `unsigned __int128` shifted right. -/
def shr (x s : Nat) : Option Nat := if s < 128 then some (x / 2 ^ s) else none

/-- math/long-double/normalizel.h:10-17 (`clzti2_(i) - 15`). -/
def normalizel (i : Nat) : Option Int := Math.normalize ldbl i

/-! ### Comparison -/

/-- isnanl.h:3-6. -/
def isnanl (a : Nat) : Prop := 0x7FFF * 2 ^ 113 < a * 2 % 2 ^ 128

instance (a : Nat) : Decidable (isnanl a) := inferInstanceAs (Decidable (_ < _))

/-- unordtf2.h:3-6, unordtf2.c. -/
def unordtf2 (a b : Nat) : Nat := bit (isnanl a ∨ isnanl b)

/-- eqtf2.c:3-9; `__netf2` is the same function. -/
def eqtf2 (a b : Nat) : Nat := bit ((a ≠ b ∨ isnanl a) ∧ (a ||| b) * 2 % 2 ^ 128 ≠ 0)

/-- cmptf2.c:4-17.  `(a & b) >> 127` is -1 if both signs are set. -/
def cmptf2' (x y : Nat) (unordered : Int) : Int :=
  let a := toS x
  let b := toS y
  let sign : Int := if a < 0 ∧ b < 0 then -1 else 0
  if (x ||| y) * 2 % 2 ^ 128 = 0 then 0
  else if unordtf2 x y ≠ 0 then unordered
  else xorSign ((bit (b < a) : Int) - bit (a < b) + sign) sign

/-- cmptf2.c:19-25: `__cmptf2`, `__letf2`, `__lttf2`. -/
def cmptf2 (x y : Nat) : Int := cmptf2' x y 1

/-- cmptf2.c:27-32: `__getf2`, `__gttf2`. -/
def getf2 (x y : Nat) : Int := cmptf2' x y (-1)

/-! ### Multiplication -/

/-- compose/product.h:1-18. -/
def composeProduct (exp : Int) (significand : Nat) : Option Nat :=
  if 0x7FFF ≤ exp then some (0x7FFF * 2 ^ 112)
  else if 0 < exp then
    let tail := significand * 2 % 2 ^ 128
    some ((exp.toNat * 2 ^ 112 ||| tail / 2 ^ 16) + bit (0x8000 < (tail % 2 ^ 16 ||| tail / 2 ^ 16 % 2)))
  else if -112 ≤ exp then
    (shr (significand / 2 ^ 16) (-exp).toNat).bind fun q =>
    (shl significand (112 + exp).toNat).bind fun r =>
    some (q + bit (0x8000000000000000 < (r / 2 ^ 64 ||| bit (q % 2 ≠ 0 ∨ r % 2 ^ 64 ≠ 0))))
  else some 0

/-- `a << 15 | msb` for a normalized magnitude (multf3.c:10, divtf3.c:29). -/
def fraction (a : Int) : Nat := toU a * 2 ^ 15 % 2 ^ 128 ||| 2 ^ 127

/-- multf3.c:6-17. -/
def mulKernel (a b : Int) : Option Nat :=
  let p := umulti4 (fraction a) (fraction b)
  let carry : Nat := p.2 / 2 ^ 127
  composeProduct (a / 2 ^ 112 + b / 2 ^ 112 - 0x3FFF + carry) ((p.2 ||| bit (p.1 ≠ 0)) * 2 ^ (1 - carry) % 2 ^ 128)

/-- multf3.c:19-33.  `b - 1` is unsigned. -/
def mulMagnitude (a b : Nat) : Option Nat :=
  let inf := 0x7FFF * 2 ^ 112
  if inf ≤ a then some (a ||| bit (inf ≤ (b + (2 ^ 128 - 1)) % 2 ^ 128) * 2 ^ 111)
  else if inf ≤ b then some (b ||| bit (a = 0) * 2 ^ 111)
  else if a ≠ 0 ∧ b ≠ 0 then (normalizel a).bind fun a => (normalizel b).bind fun b => mulKernel a b
  else some 0

/-- multf3.c:35-42. -/
def multf3 (x y : Nat) : Option Nat :=
  (mulMagnitude (x % 2 ^ 127) (y % 2 ^ 127)).bind fun m => some (m ||| ((x ^^^ y) &&& 2 ^ 127))

/-! ### Addition -/

/-- addtf3.c:3-9. -/
def composeSum (significand shift : Nat) : Nat :=
  if shift < 0x7FFE then significand + shift * 2 ^ 112 else 0x7FFF * 2 ^ 112

/-- addtf3.c:18,39: the difference of the exponents; a subnormal has exponent 1. -/
def expDiff (a b : Nat) : Nat := a / 2 ^ 112 - (b / 2 ^ 112 ||| bit (b / 2 ^ 112 = 0))

/-- addtf3.c:11-32, over the left shift `sl`. -/
def addMagnitude (sl : Nat → Nat → Option Nat) (a b : Nat) : Option Nat :=
  let implied := 2 ^ 112
  if a < implied then some (a + b)
  else
    let shift := expDiff a b
    if 114 ≤ shift then some a
    else
      let aa := a % implied ||| implied
      let bb := b % implied ||| bit (b / 2 ^ 112 ≠ 0) * 2 ^ 112
      (shr bb shift).bind fun t =>
      let i := aa + t
      (sl bb (128 - shift)).bind fun frac =>
      if i < implied * 2 then
        some (composeSum (i + bit (0x8000000000000000 < (frac / 2 ^ 64 ||| i % 2 ||| bit (frac % 2 ^ 64 ≠ 0)))) (a / 2 ^ 112 - 1))
      else some (composeSum (i / 2 + (i &&& (i / 2 % 2 ||| bit (frac ≠ 0)))) (a / 2 ^ 112))

/-- addtf3.c:34-53.  The conversion of `i` to `long double` is `__floatuntitf`. -/
def subMagnitude (sl : Nat → Nat → Option Nat) (a b : Nat) : Option Nat :=
  if a < 2 * 2 ^ 112 then some (a - b)
  else
    let shift := expDiff a b
    if 114 ≤ shift then some a
    else
      let aa := a * 2 ^ 15 % 2 ^ 128 ||| 2 ^ 127
      let bb := b * 2 ^ 15 % 2 ^ 128 ||| bit (b / 2 ^ 112 ≠ 0) * 2 ^ 127
      (shr bb shift).bind fun t =>
      (sl bb (128 - shift)).bind fun rest =>
      let i := (aa + 2 ^ 128 - (t ||| bit (rest ≠ 0))) % 2 ^ 128
      let bits : Int := floatuntitf i + (((a / 2 ^ 112 : Nat) : Int) - 0x407E) * 2 ^ 112
      if 2 ^ 112 ≤ bits then some (toU bits)
      else if a / 2 ^ 112 < 16 then shr i (16 - a / 2 ^ 112)
      else shl i (a / 2 ^ 112 - 16)

/-- addtf3.c:55-77. -/
def sorted (sl : Nat → Nat → Option Nat) (a b : Nat) : Option Nat :=
  let inf := 0x7FFF * 2 ^ 112
  let aa := a % 2 ^ 127
  let bb := b % 2 ^ 127
  if inf < aa then some (a ||| 2 ^ 111)
  else if (a ^^^ b) / 2 ^ 127 ≠ 0 then
    if aa = inf then some (a ||| bit (bb = inf) * 2 ^ 111)
    else if aa = bb then some 0
    else (subMagnitude sl aa bb).bind fun m => some ((a &&& 2 ^ 127) ||| m)
  else (addMagnitude sl aa bb).bind fun m => some ((a &&& 2 ^ 127) ||| m)

/-- addtf3.c:79-86 over the left shift `sl`. -/
def addWith (sl : Nat → Nat → Option Nat) (x y : Nat) : Option Nat :=
  if x % 2 ^ 127 < y % 2 ^ 127 then sorted sl y x else sorted sl x y

/-- addtf3.c:79-86. -/
def addtf3 (x y : Nat) : Option Nat := addWith shl x y

/-- addtf3.c:88-91. -/
def subtf3 (x y : Nat) : Option Nat := addtf3 x (y ^^^ 2 ^ 127)

/-! ### Conversions between floating-point types -/

/-- extenddftf2.c:6-12. -/
def extendMagnitude (i : Nat) : Option Nat :=
  if 0x7FF0000000000000 ≤ i then some (0x78 * 2 ^ 120 ||| i * 2 ^ 60)
  else if i = 0 then some 0
  else (Math.normalize Math.dbl i).bind fun n => some (0x3C * 2 ^ 120 + n * 2 ^ 60).toNat

/-- extenddftf2.c:14-19.  `copysignl(m, x)` moves the sign bit of `x`. -/
def extenddftf2 (x : Nat) : Option Nat :=
  (extendMagnitude (b64.abs x)).bind fun m => some (b128.pack (b64.neg x) m)

/-- extendsftf2.c:5-11. -/
def extendHigh (i : Nat) : Nat :=
  if 0x7FF0000000000000 ≤ i then 0x7800000000000000 ||| i / 2 ^ 4
  else if i = 0 then 0
  else 0x3C00000000000000 + i / 2 ^ 4

/-- extendsftf2.c:13-19. -/
def extendsftf2 (x : Nat) : Nat :=
  let i := b32.conv b64 x
  (extendHigh (i % 2 ^ 63) ||| (i &&& 2 ^ 63)) * 2 ^ 64

/-- trunctfdf2.c:4-21. -/
def truncMagnitude (high low : Nat) : Nat :=
  if 0x7FFF000000000000 < high ∨ (high = 0x7FFF000000000000 ∧ low ≠ 0) then high
  else if 0x43FF000000000000 ≤ high then 0x7FF0000000000000
  else if 0x3C01000000000000 ≤ high then
    ((high - 0x3C00000000000000) * 2 ^ 4 ||| low / 2 ^ 60) + bit (0x8000000000000000 < (low / 2 ^ 59 % 2 ||| low * 2 ^ 4 % 2 ^ 64))
  else if 0x3BCC000000000000 ≤ high then
    let significand := (0x8000000000000000 ||| high * 2 ^ 15 % 2 ^ 64) / 2 ^ 11 ||| low / 2 ^ 60 ||| bit (low * 2 ^ 4 % 2 ^ 64 ≠ 0)
    let coeff := (high / 2 ^ 48 - 0x3802) * 2 ^ 52
    b64.mul significand coeff
  else 0

/-- trunctfdf2.c:23-29. -/
def trunctfdf2 (x : Nat) : Nat :=
  let high := x / 2 ^ 64
  truncMagnitude (high % 2 ^ 63) (x % 2 ^ 64) ||| (high &&& 2 ^ 63)

/-- trunctfsf2.c:5-17. -/
def truncHigh (i : Nat) : Nat :=
  if 0x7FFF000000000000 < i then i
  else if 0x43FF000000000000 ≤ i then 0x7FF0000000000000
  else if 0x3C00000000000000 < i then (i - 0x3C00000000000000) * 2 ^ 4
  else 0

/-- trunctfsf2.c:19-25: the last step converts a `double` to `float`. -/
def trunctfsf2 (x : Nat) : Nat :=
  let i := x / 2 ^ 64 ||| bit (x % 2 ^ 64 ≠ 0)
  b64.conv b32 (truncHigh (i % 2 ^ 63) ||| (i &&& 2 ^ 63))

/-! ### Conversions to integers -/

/-- fixunstfdi.h:3-15, `high` signed. -/
def fixHigh (high : Int) (low : Nat) : Option Nat :=
  if high < 0x3FFF000000000000 then some 0
  else
    let shift : Int := 112 + 0x3FFF - high / 2 ^ 48
    let significand := high.toNat % 2 ^ 48 ||| 0x0001000000000000
    if shift < 64 then
      if 0 < shift then some (significand * 2 ^ (64 - shift).toNat % 2 ^ 64 ||| low / 2 ^ shift.toNat) else none
    else some (significand / 2 ^ (shift.toNat % 64))

/-- The upper half of a pattern as `int64_t`. -/
def upper (x : Nat) : Int := toS x / 2 ^ 64

/-- fixunstfdi.c:5-10. -/
def fixunstfdi (x : Nat) : Option Nat := fixHigh (upper x) (x % 2 ^ 64)

/-- Conversion of `uint64_t` to `int64_t` (clang wraps). -/
def wrap64 (r : Nat) : Int := if r < 2 ^ 63 then (r : Int) else (r : Int) - 2 ^ 64

/-- fixtfdi.c:5-12.  `fixunstfdi_(…) + sign ^ sign` is unsigned. -/
def fixtfdi (x : Nat) : Option Int :=
  let sign : Int := if upper x < 0 then -1 else 0
  (fixHigh (upper x % 2 ^ 63) (x % 2 ^ 64)).bind fun m =>
    let u : Nat := (((m : Int) + sign) % 2 ^ 64).toNat
    some (wrap64 (if sign = 0 then u else 2 ^ 64 - 1 - u))

/-- Conversion of a `double` to an integer type with values from `lo` to `hi`. -/
def fromDouble (lo hi : Int) (d : Nat) : Option Int :=
  if b64.isFin d then
    let t : Int := if b64.neg d then -(b64.whole d : Int) else b64.whole d
    if lo ≤ t ∧ t ≤ hi then some t else none
  else none

/-- fixtfsi.c:4-15. -/
def fixtfsi (x : Nat) : Option Int :=
  let high := x / 2 ^ 64
  if high % 2 ^ 63 < 0x3FFF000000000000 then some 0
  else fromDouble (-2 ^ 31) (2 ^ 31 - 1) ((high &&& 2 ^ 63) ||| (high + (2 ^ 64 - 0x3C00000000000000)) * 2 ^ 4 % 2 ^ 64)

/-- fixunstfsi.c:4-12. -/
def fixunstfsi (x : Nat) : Option Int :=
  let high := upper x
  if high < 0x3FFF000000000000 then some 0
  else fromDouble 0 (2 ^ 32 - 1) ((high - 0x3C00000000000000) * 2 ^ 4 % 2 ^ 64).toNat

/-- fixunstfti.h:1-12, `bits` signed. -/
def fixBits (bits : Int) : Option Nat :=
  let implied := 2 ^ 112
  if bits / 2 ^ 64 < 0x3FFF000000000000 then some 0
  else
    let shift : Int := 112 + 0x3FFF - bits / 2 ^ 112
    let significand := bits.toNat % implied ||| implied
    if shift < 0 then shl significand (-shift).toNat else shr significand shift.toNat

/-- fixunstfti.c:4-7. -/
def fixunstfti (x : Nat) : Option Nat := fixBits (toS x)

/-- fixtfti.c:5-10.  `-magnitude` can overflow. -/
def fixtfti (x : Nat) : Option Int :=
  (fixBits (toS (x % 2 ^ 127))).bind fun m => if 2 ^ 127 ≤ x then chk128 (-toS m) else some (toS m)

/-! ### Functions of /repo/src/math/long-double -/

/-- truncl.c:3-10. -/
def maskshift (exp : Nat) : Nat := if exp < 0x3FFF then 127 else 112 + 0x3FFF - exp

/-- truncl.c:12-19. -/
def truncl (x : Nat) : Option Nat :=
  (shl (2 ^ 128 - 1) (maskshift (x * 2 % 2 ^ 128 / 2 ^ 113))).bind fun mask => some (x &&& mask)

/-- nearbyintl.c:18-21. -/
def nearbyintl (x : Nat) : Option Nat := extenddftf2 (b64.rint (trunctfdf2 x))

/-- nexttowardl.c:9-24.  `LDBL_TRUE_MIN` is the pattern 1. -/
def nexttowardl (x y : Nat) : Option Nat :=
  if eqtf2 x y = 0 ∨ eqtf2 y y ≠ 0 then some y
  else if eqtf2 x x ≠ 0 then some x
  else if eqtf2 x 0 = 0 then some (b128.copysign 1 y)
  else (chk128 (if toS y < toS x ∨ 2 ^ 127 ≤ x ^^^ y then toS x - 1 else toS x + 1)).bind fun i => some (toU i)

/-- ldexpl.c:12-34.  `0x1p-113L` is `0x3F8E` followed by zeros. -/
def ldexpl (x : Nat) (exp : Int) : Option Nat :=
  let abs := x % 2 ^ 127
  if abs = 0 ∨ 0x7FFF * 2 ^ 112 ≤ abs then some x
  else (normalizel abs).bind fun i =>
    let biased := exp + i / 2 ^ 112
    if 0x7FFF ≤ biased ∨ biased < -113 then multf3 x (if exp < 0 then 0 else 0x7FFF * 2 ^ 112)
    else
      let mantissa := (i % 2 ^ 112).toNat
      if 0 < biased then some (b128.copysign (mantissa ||| biased.toNat * 2 ^ 112) x)
      else multf3 (b128.copysign (0x3F8E * 2 ^ 112) x) (mantissa ||| (biased + 113).toNat * 2 ^ 112)

/-! ### Division and square root -/

/-- `f64.div` for positive finite operands. -/
def div64 (x y : Nat) : Nat := b64.rnd (b64.mag x * 2 ^ b64.unit) (b64.mag y)

/-- The largest `r` with `r * r ≤ n`, between `lo` and `lo + 2^k`. -/
def rootGo (n : Nat) : Nat → Nat → Nat
  | 0, lo => lo
  | k + 1, lo => if (lo + 2 ^ k) * (lo + 2 ^ k) ≤ n then rootGo n k (lo + 2 ^ k) else rootGo n k lo

/-- `f64.sqrt` for a positive finite operand: the pattern nearest to the root.  A root never lies halfway
between two patterns. -/
def sqrt64 (x : Nat) : Nat :=
  let n := b64.mag x * 2 ^ b64.unit
  let p := b64.floorPat (rootGo n 1600 0)
  if (b64.mag p + b64.mag (p + 1)) * (b64.mag p + b64.mag (p + 1)) < 4 * n then p + 1 else p

/-- `(uint64_t)d` of a positive `double`. -/
def toU64 (d : Nat) : Option Nat := if b64.whole d < 2 ^ 64 then some (b64.whole d) else none

/-- divtf3.c:7-10, sqrtl.c:13-16. -/
def fixmul (a b : Nat) : Nat := (umulditi3 a (b / 2 ^ 64) + umulditi3 a (b % 2 ^ 64) / 2 ^ 64) % 2 ^ 128

/-- divtf3.c:12-24.  `0x1p120` is `0x4770000000000000`. -/
def fixdiv (a b : Nat) : Option Nat :=
  (toU64 (div64 0x4770000000000000 (b64.ofInt (b / 2 ^ 64 : Nat)))).bind fun d =>
  let initial := d * 2 ^ 7 % 2 ^ 64
  let estimate := (umulditi3 initial ((2 ^ 64 - umulditi3 initial (b / 2 ^ 64) / 2 ^ 64) % 2 ^ 64) / 2 ^ 63 + (2 ^ 64 - 1)) % 2 ^ 64
  let q := (umulti4 a ((fixmul estimate ((2 ^ 128 - fixmul estimate b) % 2 ^ 128) + (2 ^ 128 - 2)) % 2 ^ 128)).2 / 2 ^ 2
  let p := umulti4 ((q + 1) % 2 ^ 128) b
  some ((q + bit (a / 2 ^ 4 ≤ p.2)) * 2 ^ 3 % 2 ^ 128 ||| bit (p.1 ≠ 0))

/-- divtf3.c:26-33. -/
def divKernel (a b : Int) : Option Nat :=
  (fixdiv (fraction a) (fraction b)).bind fun quotient =>
  let carry : Nat := quotient / 2 ^ 127
  composeProduct (a / 2 ^ 112 - b / 2 ^ 112 + 0x3FFE + carry) (quotient * 2 ^ (1 - carry) % 2 ^ 128)

/-- divtf3.c:35-52. -/
def divMagnitude (a b : Nat) : Option Nat :=
  let inf := 0x7FFF * 2 ^ 112
  if inf ≤ a then some (a ||| bit (inf ≤ b) * 2 ^ 111)
  else if b = 0 then some (inf ||| bit (a = 0) * 2 ^ 111)
  else if inf < b then some (b ||| 2 ^ 111)
  else if a = 0 ∨ b = inf then some 0
  else (normalizel a).bind fun a => (normalizel b).bind fun b => divKernel a b

/-- divtf3.c:54-61. -/
def divtf3 (x y : Nat) : Option Nat :=
  (divMagnitude (x % 2 ^ 127) (y % 2 ^ 127)).bind fun m => some (m ||| ((x ^^^ y) &&& 2 ^ 127))

/-- sqrtl.c:8-11. -/
def iterate (x a : Nat) : Nat :=
  umulditi3 x ((0xC000000000000000 + 2 ^ 64 - umulditi3 x (umulditi3 x a / 2 ^ 64) / 2 ^ 64) % 2 ^ 64) / 2 ^ 63 % 2 ^ 64

/-- sqrtl.c:18-21. -/
def expand (x a : Nat) : Nat := fixmul x ((3 * 2 ^ 126 + 2 ^ 128 - fixmul x (fixmul x a)) % 2 ^ 128)

/-- sqrtl.c:23-38.  `0x1p90` is `0x4590000000000000`; the sum at the end is signed and does not overflow. -/
def sqrtFinite (a : Int) : Option Nat :=
  let significand := fraction a / 2 ^ (a / 2 ^ 112 % 2).toNat
  (toU64 (div64 0x4590000000000000 (sqrt64 (b64.ofInt (significand / 2 ^ 64 : Nat))))).bind fun d =>
  let initial := d * 2 ^ 5 % 2 ^ 64
  let estimate := (iterate initial (significand / 2 ^ 64) + (2 ^ 64 - 1)) % 2 ^ 64
  let reciprocal := (expand estimate significand + (2 ^ 128 - 1)) % 2 ^ 128
  let root := (umulti4 significand reciprocal).2 / 2 ^ 13
  let high := (umulti4 (root * 2 ^ 13 % 2 ^ 128) ((root + 1) * 2 ^ 13 % 2 ^ 128)).2
  some ((((a / 2 ^ 112 + 0x3FFD) / 2).toNat * 2 ^ 112 ||| bit (high < significand / 2 ^ 4)) + root)

/-- sqrtl.c:40-54. -/
def sqrtl (x : Nat) : Option Nat :=
  let inf := 0x7FFF * 2 ^ 112
  if x * 2 % 2 ^ 128 = 0 ∨ x = inf then some x
  else if x < inf then (normalizel x).bind sqrtFinite
  else some (x ||| (inf ||| 2 ^ 111))

end Verif.Quad
