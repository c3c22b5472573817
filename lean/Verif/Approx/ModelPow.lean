import Verif.Approx.Model

/-!
# Model of `powf`

`src/math/float/{powf.c, dd.h, log2_dd.h}`.  `fma` is the function of src/math/double/fma.c, as WebAssembly has no such instruction: `Math.fma`.
Functions not used by `powf` (`dd_sqrt_`, `dd_div_`, `round_dd_signed_`) are in ModelInv.
-/

namespace Verif.Approx
open Verif.Float

/-- `sum_t`, src/math/float/dd.h:20 -/
abbrev Dd := Nat × Nat

/-- `dd_2sum_`, src/math/float/dd.h:22-28 -/
def ddSum (a b : Nat) : Dd :=
  let hi := b64.add a b
  let diff := b64.sub hi a
  (hi, b64.add (b64.sub a (b64.sub hi diff)) (b64.sub b diff))

/-- `dd_product_`, src/math/float/dd.h:30-34 -/
def ddProduct (a b : Nat) : Option Dd :=
  let hi := b64.mul a b
  (Math.fma a b (b64.opp hi)).map fun lo => (hi, lo)

/-- `dd_quotient_`, src/math/float/dd.h:36-40 -/
def ddQuotient (a b : Nat) : Option Dd :=
  let hi := Arith.fdiv b64 a b
  (Math.fma hi (b64.opp b) a).map fun r => (hi, Arith.fdiv b64 r b)

/-- `dd_add_`, src/math/float/dd.h:42-49 -/
def ddAdd (a b : Dd) : Dd :=
  let s := ddSum a.1 b.1
  let lo := b64.add s.2 (b64.add a.2 b.2)
  let hi := b64.add s.1 lo
  (hi, b64.sub lo (b64.sub hi s.1))

/-- `dd_mul_dd_`, src/math/float/dd.h:51-57 -/
def ddMul (a b : Dd) : Option Dd :=
  (ddProduct a.1 b.1).bind fun p => (Math.fma a.1 b.2 p.2).bind fun lo => (Math.fma a.2 b.1 lo).map fun lo => (p.1, lo)

/-- `dd_mul_f64_`, src/math/float/dd.h:59-63 -/
def ddMul1 (a : Dd) (b : Nat) : Option Dd :=
  (ddProduct a.1 b).bind fun p => (Math.fma a.2 b p.2).map fun lo => (p.1, lo)

/-- `poly_dd_`, src/math/float/dd.h:91-97 -/
def polyDd (u : Dd) : List Dd → Option Dd
  | [] => some (0, 0)
  | [c] => some c
  | c :: d :: cs => (polyDd u (d :: cs)).bind fun acc => (ddMul acc u).map fun p => ddAdd p c

/-- FLT_MIN as a `double` -/
def fltMin : Nat := 0x3810000000000000

/-- `round_dd_`, src/math/float/dd.h:102-113; on patterns in 64 bits -/
def roundDd (v : Dd) : Nat :=
  narrow (if b64.eq v.2 0 ∨ v.1 % 2 = 1 then v.1 else if b64.lt 0 v.2 then (v.1 + 1) % 2 ^ 64 else (v.1 + 2 ^ 64 - 1) % 2 ^ 64)

/-- `round_dd_general_`, src/math/float/dd.h:116-127; 0x1p149 and 0x1p-149 -/
def roundDdGeneral (v : Dd) : Nat :=
  if b64.le fltMin v.1 then roundDd v
  else
    let h := b64.mul v.1 0x4940000000000000
    let l := b64.mul v.2 0x4940000000000000
    let n := b64.rint h
    let n := b64.add n (b64.rint (b64.add (b64.sub h n) l))
    narrow (b64.mul n 0x36A0000000000000)

/-- `log2_dd_c_`, src/math/float/log2_dd.h:13-27 -/
def log2DdC : List Dd := [
  (0x40071547652B82FE, 0x3C8777D0FFDA2B45), (0x3FEEC709DC3A03FD, 0x3C8D27F05001997F), (0x3FE2776C50EF9BFE, 0x3C8E4B5100A7DA82),
  (0x3FDA61762A7ADED9, 0x3C6DE8BE1F4C6AF4), (0x3FD484B13D7C02AE, 0x3C78910BEFD64916), (0x3FD0C9A84993FD4D, 0xBC742EC1944105B9),
  (0x3FCC68F568D8B9F8, 0x3C54A202F6F617D1), (0x3FC89F3B1466FA35, 0x3C6609AD500F1355), (0x3FC5B9AD2EDD26F5, 0xBC5FE614FA378CF6),
  (0x3FC3702170D0C037, 0x3C566B9177198F55), (0x3FC1998E66EE11D9, 0x3C66DB8283CC8C83), (0x3FBF9BDD71E1B076, 0xBC4DA7CF31936322),
  (0x3FC1ABC31F3E00F2, 0x3C3622191A3AB235)]

/-- The exponent split off by src/math/float/log2_dd.h:32-33 and src/math/float/powf.c:72-73: the quotient by 2^52 is rounded down -/
def powExponent (x : Nat) : Int := (s64 x - 0x3FE6A09E667F3BCD) / 2 ^ 52

/-- The rest, in [√½, √2), src/math/float/log2_dd.h:34 and src/math/float/powf.c:74; `int64_t` -/
def powMantissa (x : Nat) : Nat := u64 (s64 x - powExponent x * 2 ^ 52)

/-- `log2_dd_`, src/math/float/log2_dd.h:30-38 -/
def log2Dd (x : Nat) : Option Dd :=
  let m := powMantissa x
  (ddQuotient (b64.sub m one) (b64.add m one)).bind fun t => (ddMul t t).bind fun u => (polyDd u log2DdC).bind fun p => (ddMul t p).map fun l =>
    ddAdd (b64.ofInt (powExponent x), 0) l

/-- `exp2_dd_c_`, src/math/float/powf.c:9-28 -/
def exp2DdC : List Dd := [
  (0x3FF0000000000000, 0x39DF7CEBD0EE8547), (0x3FE62E42FEFA39EF, 0x3C7ABC9E3B398089), (0x3FCEBFBDFF82C58F, 0xBC65E43A540C27B9),
  (0x3FAC6B08D704A0C0, 0xBC4D3316275703DC), (0x3F83B2AB6FBA4E77, 0x3C14E66003B50E31), (0x3F55D87FE78A6731, 0x3BD071809FC17033),
  (0x3F2430912F86C787, 0x3BCBC81B12943E84), (0x3EEFFCBFC588B0C7, 0xBB8E59E36CC9B6DA), (0x3EB62C0223A5C826, 0xBB5305F0F74B8DEB),
  (0x3E7B5253D395E7C5, 0xBB02F08D374A5B3A), (0x3E3E4CF5158B7B01, 0xBABBDAA00745C3A8), (0x3DFE8CAC7351AF99, 0xBA97FB30D4D8FEFB),
  (0x3DBC3BD6518273FD, 0xBA50A1C340654F69), (0x3D78161931B5316C, 0xBA0F8918A1797259), (0x3D3314943A27E23A, 0xB9D67185341EF4A1),
  (0x3CEC36E5D7A3BAD2, 0x3955EAAAD7A1707C), (0x3CA397637900B7CC, 0x394BC996F7218793), (0x3C598E9997973801, 0x38D754CF7183D2F3)]

/-- `log2_fp_c_`, src/math/float/powf.c:31-43 -/
def log2FpC : List Nat := [
  0x40071547652B82FE, 0x3FEEC709DC3A03FD, 0x3FE2776C50EF9BFF, 0x3FDA61762A7ADE6F, 0x3FD484B13D7C7384, 0x3FD0C9A8494E4AA6, 0x3FCC68F59E7642A3,
  0x3FC89F2DDC3C2853, 0x3FC5BBC386027885, 0x3FC33C10DF1FDFB3, 0x3FC46BFD1EDD26A7]

/-- `exp2_fp_c_`, src/math/float/powf.c:46-58 -/
def exp2FpC : List Nat := [
  0x3FF0000000000000, 0x3FE62E42FEFA3A19, 0x3FCEBFBDFF82C598, 0x3FAC6B08D703CE49, 0x3F83B2AB6FBA1DDA, 0x3F55D87FE9D7A584, 0x3F2430913096FD9F,
  0x3EEFFCB54062E698, 0x3EB62BFD47773353, 0x3E7B675BCA4EEEBB, 0x3E3E6063F7217BC6]

/-- `poly_f64_`, src/math/float/powf.c:61-67 -/
def polyFma (x : Nat) : List Nat → Option Nat
  | [] => some 0
  | [c] => some c
  | c :: d :: cs => (polyFma x (d :: cs)).bind fun acc => Math.fma acc x c

/-- `log2_fast_`, src/math/float/powf.c:70-77 -/
def log2Fast (x : Nat) : Option Nat :=
  let m := powMantissa x
  let t := Arith.fdiv b64 (b64.sub m one) (b64.add m one)
  (polyFma (b64.mul t t) log2FpC).bind fun p => Math.fma t p (b64.ofInt (powExponent x))

/-- `exp2_dd_`, src/math/float/powf.c:80-94; 130 and -160 -/
def exp2Dd (e : Dd) : Option Nat :=
  if b64.lt 0x4060400000000000 e.1 then some b32.inf
  else if b64.lt e.1 0xC064000000000000 then some 0
  else
    let n := b64.rint e.1
    let h := ddSum (b64.sub e.1 n) e.2
    (polyDd h exp2DdC).bind fun m => (toInt64 b64 n).bind fun ni =>
      (shift m.1 ni).bind fun hi => (shift m.2 ni).map fun lo => roundDdGeneral (hi, lo)

/-- `powf_core_`, src/math/float/powf.c:101-121; 0x1p127 -/
def powCore (x y : Nat) : Option Nat :=
  (log2Fast x).bind fun l =>
  let e := b64.mul l y
  if b64.lt 0x4060400000000000 e then some b32.inf
  else if b64.lt e 0xC064000000000000 then some 0
  else
    let n := b64.rint e
    (polyFma (b64.sub e n) exp2FpC).bind fun p => (toInt64 b64 n).bind fun ni => (shift p ni).bind fun r =>
    let dist : Int := (r % 2 ^ 29 : Nat) - 0x10000000
    if b64.le fltMin r ∧ b64.lt r 0x47E0000000000000 ∧ 0x2000 < dist.natAbs then some (narrow r)
    else (log2Dd x).bind fun l => (ddMul1 l y).bind fun e => exp2Dd e

/-- `unsigned_`, src/math/float/powf.c:123-143 -/
def powUnsigned (x y : Nat) : Option Nat :=
  if b32.eq x 0x3F800000 then some 0x3F800000
  else if b32.isNaN x ∨ b32.isNaN y then some (b32.add x y)
  else if b32.eq x 0 then some (if b32.neg y then b32.inf else 0)
  else if b32.abs x = b32.inf then some (if b32.neg y then 0 else b32.inf)
  else if b32.neg x then some b32.nan
  else powCore (wide x) (wide y)

/-- `powf`, src/math/float/powf.c:145-159.  The result of `unsigned_` is not negative, or NaN; `| sign` sets the sign. -/
def powf (x y : Nat) : Option Nat :=
  if b32.eq y 0 then some 0x3F800000
  else
    let half := Arith.fdiv b32 y 0x40000000
    if b32.neg x ∧ b32.eq (b32.rint y) y then
      (powUnsigned (b32.opp x) y).map fun m => m ||| (if b32.eq (b32.rint half) half then 0 else 0x80000000)
    else powUnsigned x y

end Verif.Approx
