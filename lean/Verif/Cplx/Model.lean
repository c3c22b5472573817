import Verif.Arith.Model
import Verif.Math.Model
import Verif.Quad.Model

/-!
# Model of complex multiplication, division, square root and logarithm

`src/soft/complex`, `src/math/double/{conj.c, cproj.c, csqrt.c, finite/csqrt.h, clog.h}` and their `float` twins of the same
text.  A complex number is a pair of patterns.  A real number times a complex one multiplies both parts (C11 G.5.1).
-/

namespace Verif.Cplx
open Verif.Float Verif.Math
open Verif.Arith (fdiv)

/-- A complex number. -/
abbrev C := Nat × Nat

/-- `isinf`. -/
def isInf (F : Fmt) (x : Nat) : Bool := F.abs x = F.inf

/-- `copysign(!!isinf(x), x)`. -/
def box (F : Fmt) (x : Nat) : Nat := F.copysign (F.ofInt (if isInf F x then 1 else 0)) x

/-- `if (x != x) x = copysign(0, x)`. -/
def scrub (F : Fmt) (x : Nat) : Nat := if F.isNaN x then F.copysign (F.ofInt 0) x else x

/-- A real number times a complex one. -/
def scale (F : Fmt) (r : Nat) (z : C) : C := (F.mul r z.1, F.mul r z.2)

/-- The formula of the product. -/
def product (F : Fmt) (a b c d : Nat) : C := (F.sub (F.mul a c) (F.mul b d), F.add (F.mul a d) (F.mul b c))

/-- The numerator of a quotient: the product with the conjugate. -/
def numerator (F : Fmt) (a b c d : Nat) : C := (F.add (F.mul a c) (F.mul b d), F.sub (F.mul b c) (F.mul a d))

/-- `__muldc3`, `__mulsc3`: src/soft/complex/multiplication.h:4-46 -/
def cmul (F : Fmt) (a b c d : Nat) : C :=
  let z := product F a b c d
  if F.isNaN z.1 ∧ F.isNaN z.2 then
    let left := isInf F a || isInf F b
    let a₁ := if left then box F a else a
    let b₁ := if left then box F b else b
    let c₁ := if left then scrub F c else c
    let d₁ := if left then scrub F d else d
    let right := isInf F c₁ || isInf F d₁
    let c₂ := if right then box F c₁ else c₁
    let d₂ := if right then box F d₁ else d₁
    let a₂ := if right then scrub F a₁ else a₁
    let b₂ := if right then scrub F b₁ else b₁
    if left || right then scale F F.inf (product F a₂ b₂ c₂ d₂)
    else if isInf F (F.mul a c) || isInf F (F.mul b d) || isInf F (F.mul a d) || isInf F (F.mul b c) then
      scale F F.inf (product F (scrub F a) (scrub F b) (scrub F c) (scrub F d))
    else z
  else z

/-- The conversion of a floating-point number to `int`, here of one known to fit. -/
def toInt (F : Fmt) (x : Nat) : Int := if F.neg x then -(F.whole x : Int) else F.whole x

/-- The recovery of infinities and zeros (`copysignf` of a `double` takes only its sign, which the conversion keeps), src/soft/complex/division.h:19-33: `zero` is `denominator == 0`, `inf` is
`logbw == INFINITY`; src/soft/complex/divsc3.c:13-27: `zero` is `c == 0 && d == 0`, `inf` is `isinf(c) || isinf(d)`. -/
def recover (F : Fmt) (a b c d : Nat) (zero inf : Bool) (z : C) : C :=
  if F.isNaN z.1 ∧ F.isNaN z.2 then
    if zero ∧ (F.isNaN a = false ∨ F.isNaN b = false) then scale F (F.copysign F.inf c) (a, b)
    else if (isInf F a ∨ isInf F b) ∧ F.isFin c ∧ F.isFin d then scale F F.inf (numerator F (box F a) (box F b) c d)
    else if inf ∧ F.isFin a ∧ F.isFin b then scale F (F.ofInt 0) (numerator F a b (box F c) (box F d))
    else z
  else z

/-- `__divdc3` after the scaling of the divisor, src/soft/complex/division.h:15-36 -/
def divScaled (a b c d logbw : Nat) (scale : Int) : Option C := do
  let denominator := b64.add (b64.mul c c) (b64.mul d d)
  let n := numerator b64 a b c d
  let x ← scalbn (fdiv b64 n.1 denominator) scale
  let y ← scalbn (fdiv b64 n.2 denominator) scale
  some (recover b64 a b c d (b64.eq denominator 0) (b64.eq logbw b64.inf) (x, y))

/-- `__divdc3`, src/soft/complex/division.h:4-37 (divdc3.c:1-6) -/
def divdc3 (a b c d : Nat) : Option C := do
  let logbw ← logb dbl (fmax b64 (b64.abs c) (b64.abs d))
  if b64.isFin logbw then
    let scale := -toInt b64 logbw
    let c ← scalbn c scale
    let d ← scalbn d scale
    divScaled a b c d logbw scale
  else divScaled a b c d logbw 0

/-- `float` to `double`. -/
def up (x : Nat) : Nat := b32.conv b64 x

/-- `double` to `float`. -/
def down (x : Nat) : Nat := b64.conv b32 x

/-- `kernel_`, src/soft/complex/divsc3.c:4-7 -/
def kernel (a b c d : Nat) : C :=
  let n := numerator b64 a b c d
  let denominator := b64.add (b64.mul c c) (b64.mul d d)
  (fdiv b64 n.1 denominator, fdiv b64 n.2 denominator)

/-- `__divsc3`, src/soft/complex/divsc3.c:9-31 -/
def divsc3 (a b c d : Nat) : C :=
  let z := kernel (up a) (up b) (up c) (up d)
  recover b32 a b c d (b32.eq c 0 && b32.eq d 0) (isInf b32 c || isInf b32 d) (down z.1, down z.2)

/-- src/math/double/conj.c:3-6, src/math/float/conjf.c:3-6 -/
def conj (F : Fmt) (z : C) : C := (z.1, F.opp z.2)

/-- src/math/double/cproj.c:4-10, src/math/float/cprojf.c:4-10 -/
def cproj (F : Fmt) (z : C) : C := if isInf F z.1 ∨ isInf F z.2 then (F.inf, F.copysign 0 z.2) else z

/-- The pattern nearest to the root of `n` units of the square of a unit.  A root never lies halfway between two patterns. -/
def rootPat (F : Fmt) (n : Nat) : Nat :=
  let p := F.floorPat (Quad.rootGo n (2 ^ F.w) 0)
  if (F.mag p + F.mag (p + 1)) * (F.mag p + F.mag (p + 1)) < 4 * n then p + 1 else p

/-- `f32.sqrt` and `f64.sqrt`. -/
def fsqrt (F : Fmt) (x : Nat) : Nat :=
  if F.isNaN x then F.nan
  else if F.abs x = 0 then x
  else if F.neg x then F.nan
  else if F.isFin x then rootPat F (F.mag (F.abs x) * 2 ^ F.unit)
  else x

/-- `csqrt_`, src/math/double/finite/csqrt.h:5-14.  `0.5` is `0x3FE0000000000000`. -/
def csqrtFinite (x y : Nat) : C :=
  let s := fsqrt b64 (b64.mul 0x3FE0000000000000 (b64.add (b64.abs x) (fsqrt b64 (b64.add (b64.mul x x) (b64.mul y y)))))
  let t := fdiv b64 (b64.mul 0x3FE0000000000000 y) s
  if b64.neg x then (b64.abs t, b64.copysign s y) else (s, t)

/-- src/math/double/csqrt.c:5-23 -/
def csqrt (z : C) : C :=
  let x := z.1
  let y := z.2
  if b64.eq x 0 ∧ b64.eq y 0 then (b64.ofInt 0, y)
  else if isInf b64 y then (b64.inf, y)
  else if b64.eq x b64.inf then (x, b64.mul (b64.ofInt 0) y)
  else if b64.eq x (b64.opp b64.inf) then (b64.sub y y, b64.copysign x y)
  else csqrtFinite x y

/-- `real_clog_`, src/math/double/clog.h:6-32; `log1p` is a parameter.  The constants are `ln2 / 2` and `3`; `1`; `0.5`; `2`. -/
def realClog (log1p : Nat → Nat) (x y : Nat) : Nat :=
  if b64.eq x b64.inf ∨ b64.eq y b64.inf then b64.inf
  else
    let i := b64.add (b64.mul x x) (b64.mul y y)
    let exponent : Int := ((i : Int) - 0x3FE6A09E667F3BCD) / 2 ^ 52
    if i = 0 then b64.opp b64.inf
    else if 0x7FF0000000000000 < i then b64.nan
    else if exponent = 0 then
      b64.mul 0x3FE0000000000000 (log1p (b64.add (b64.sub (b64.mul x x) 0x3FF0000000000000) (b64.mul y y)))
    else
      let c := ((i : Int) - exponent * 2 ^ 52).toNat
      let t := fdiv b64 (b64.sub c 0x3FF0000000000000) (b64.add c 0x3FF0000000000000)
      b64.add (b64.mul (b64.mul 0x4000000000000000 t) (b64.add 0x3FF0000000000000 (fdiv b64 (b64.mul t t) 0x4008000000000000)))
        (b64.mul (fdiv b64 0x3FE62E42FEFA39EF 0x4000000000000000) (b64.ofInt exponent))

/-- The real part of `clog`, src/math/double/clog.h:34-40, clog.c:3-6 -/
def clogReal (log1p : Nat → Nat) (z : C) : Nat := realClog log1p (b64.abs z.1) (b64.abs z.2)

end Verif.Cplx
