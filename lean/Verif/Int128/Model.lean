import Verif.Base

/-!
# Model of the 128-bit integer runtime (`src/soft/integer`)

`uint64_t` and `unsigned __int128` values are `Nat`s below 2^64 and 2^128; every operation that
can leave the range carries an explicit `%`.  `__int128` values are `Int`s in
`-2^127 .. 2^127-1`.  The `#if defined(__x86_64__)` shortcuts are not compiled for wasm.
-/

namespace Verif.Int128

/-- `__builtin_clzll(x)` for `x ≠ 0` (undefined for 0). -/
def clz64 (x : Nat) : Nat := 63 - Nat.log2 x

/-- `clzti2_`, src/soft/integer/clzti2.h:1-4 -/
def clz128 (x : Nat) : Nat :=
  if x >>> 64 ≠ 0 then clz64 (x >>> 64) else 64 ||| clz64 (x % 2^64)

/-- `umulditi3_`, src/soft/integer/umulditi3.h:9-16 -/
def umulditi3 (a b : Nat) : Nat :=
  let a1 := (a >>> 32) % 2^32
  let b1 := (b >>> 32) % 2^32
  let a0 := a % 2^32
  let b0 := b % 2^32
  ((((a1 * b1) <<< 64) % 2^128 ||| (a0 * b0) % 2^64) + ((a1 * b0) <<< 32) % 2^128
    + ((a0 * b1) <<< 32) % 2^128) % 2^128

/-- `__multi3`, src/soft/integer/multi3.c:4-12 -/
def multi3 (a b : Nat) : Nat :=
  let a1 := (a >>> 64) % 2^64
  let b1 := (b >>> 64) % 2^64
  let a0 := a % 2^64
  let b0 := b % 2^64
  ((((a1 * b0) % 2^64 + (a0 * b1) % 2^64) % 2^64) <<< 64 % 2^128 + umulditi3 a0 b0) % 2^128

/-- `umulti4_`, src/soft/integer/umulti4.h:3-18: (low half, high half). -/
def umulti4 (a b : Nat) : Nat × Nat :=
  let a1 := (a >>> 64) % 2^64
  let b1 := (b >>> 64) % 2^64
  let a0 := a % 2^64
  let b0 := b % 2^64
  let a1b1 := umulditi3 a1 b1
  let a1b0 := umulditi3 a1 b0
  let a0b1 := umulditi3 a0 b1
  let a0b0 := umulditi3 a0 b0
  let mid := ((a0b0 >>> 64) + a1b0 % 2^64 + a0b1 % 2^64) % 2^128
  ((mid <<< 64) % 2^128 ||| a0b0 % 2^64,
   ((mid >>> 64) + (a1b0 >>> 64) + (a0b1 >>> 64) + a1b1) % 2^128)

/-- The `for` loop of `uldivmoddisi5_`, src/soft/integer/udivmodti4.h:14-20.
`none`: not finished within the fuel. -/
def adjust (b1 b0 a0 : Nat) : Nat → Nat → Nat → Option Nat
  | 0, _, _ => none
  | fuel + 1, q, rr =>
    if q > 0xFFFFFFFF ∨ (q * b0) % 2^64 > ((rr <<< 32) % 2^64 ||| a0) then
      let q := (q + 2^64 - 1) % 2^64
      let rr := (rr + b1) % 2^64
      if rr > 0xFFFFFFFF then some q else adjust b1 b0 a0 fuel q rr
    else some q

/-- `uldivmoddisi5_`, src/soft/integer/udivmodti4.h:8-24: quotient and remainder; `none` is
division by zero or failure to terminate within 4 rounds (shown not to happen). -/
def uldivmoddisi5 (a1 a0 b : Nat) : Option (Nat × Nat) :=
  let b1 := b >>> 32
  let b0 := b &&& 0xFFFFFFFF
  if b1 = 0 then none
  else
    let q := a1 / b1
    match adjust b1 b0 a0 4 q ((a1 + 2^64 - (q * b1) % 2^64) % 2^64) with
    | none => none
    | some q => some (q, (((a1 <<< 32) % 2^64 ||| a0) + 2^64 - (q * b) % 2^64) % 2^64)

/-- `uldivmoddi5_`, src/soft/integer/udivmodti4.h:30-46 -/
def uldivmoddi5 (a1 a0 b : Nat) : Option (Nat × Nat) :=
  if b = 0 then none   -- __builtin_clzll(0) is undefined
  else
    let s := clz64 b
    let an := (((a1 <<< 64) % 2^128 ||| a0) <<< (s &&& 63)) % 2^128
    let bn := (b <<< s) % 2^64
    match uldivmoddisi5 ((an >>> 64) % 2^64) ((an >>> 32) % 2^32) bn with
    | none => none
    | some (q1, r1) =>
      match uldivmoddisi5 r1 (an % 2^32) bn with
      | none => none
      | some (q0, r0) => some ((q1 <<< 32) % 2^64 ||| q0, r0 >>> s)

/-- Shift-subtract loop of `udivmodti4_`, src/soft/integer/udivmodti4.h:71-76, for `k = shift + 1`
remaining rounds: (quotient, remainder). -/
def shiftSub : Nat → Nat → Nat → Nat → Nat × Nat
  | 0, a, _, q => (q, a)
  | k + 1, a, b, q =>
    let s := if (b + 2^128 - a + 2^128 - 1) % 2^128 ≥ 2^127 then 2^128 - 1 else 0
    shiftSub k ((a + 2^128 - (b &&& s)) % 2^128) (b >>> 1) ((q <<< 1) % 2^64 ||| (s &&& 1))

/-- `udivmodti4_`, src/soft/integer/udivmodti4.h:48-80: (quotient, remainder);
`none` is division by zero. -/
def udivmodti4 (a b : Nat) : Option (Nat × Nat) :=
  let a1 := (a >>> 64) % 2^64
  let a0 := a % 2^64
  let b1 := (b >>> 64) % 2^64
  let b0 := b % 2^64
  if a < b then some (0, a)
  else if b1 = 0 then
    if b0 = 0 then none
    else
      match uldivmoddi5 (a1 % b0) a0 b0 with
      | none => none
      | some (q0, r0) => some (((a1 / b0) <<< 64) % 2^128 ||| q0, r0)
  else
    -- shift = clz b1 - clz a1, not negative because b ≤ a (shown in the proof)
    let shift := clz64 b1 - clz64 a1
    some (shiftSub (shift + 1) a ((b <<< (shift &&& 63)) % 2^128) 0)

/-- `__udivti3`, src/soft/integer/udivti3.c:3-8 -/
def udivti3 (a b : Nat) : Option Nat := (udivmodti4 a b).map (·.1)

/-- `__umodti3`, src/soft/integer/umodti3.c:3-10 -/
def umodti3 (a b : Nat) : Option Nat := (udivmodti4 a b).map (·.2)

/-- Conversion `__int128` → `unsigned __int128`. -/
def toU (x : Int) : Nat := (x % 2^128).toNat

/-- Conversion `unsigned __int128` → `__int128` (clang wraps). -/
def toS (n : Nat) : Int := if n % 2^128 < 2^127 then (n % 2^128 : Nat) else (n % 2^128 : Nat) - 2^128

/-- Range of `__int128`. -/
def IsI128 (x : Int) : Prop := -2^127 ≤ x ∧ x < 2^127

instance (x : Int) : Decidable (IsI128 x) := inferInstanceAs (Decidable (_ ∧ _))

/-- Signed `__int128` result; `none` is overflow, i.e. undefined behaviour. -/
def chk128 (x : Int) : Option Int := if IsI128 x then some x else none

/-- `x >> 127` on `__int128`: 0 or -1. -/
def sign127 (x : Int) : Int := if x < 0 then -1 else 0

/-- `x ^ s` on `__int128` where `s` is 0 or -1 (bitwise complement in the latter case). -/
def xorSign (x s : Int) : Int := if s = 0 then x else -x - 1

/-- `__divti3`, src/soft/integer/divti3.c:3-11.  `a + signa` and `b + signb` are signed additions
(`none` on overflow); the quotient and `signq` are combined as unsigned values. -/
def divti3 (a b : Int) : Option Int :=
  let sa := sign127 a
  let sb := sign127 b
  let sq := if sa = sb then (0 : Int) else -1
  match chk128 (a + sa), chk128 (b + sb) with
  | some x, some y =>
    match udivmodti4 (toU (xorSign x sa)) (toU (xorSign y sb)) with
    | none => none
    | some (q, _) =>
      let t := (q + toU sq) % 2^128
      some (toS (if sq = 0 then t else 2^128 - 1 - t))
  | _, _ => none

/-- `__modti3`, src/soft/integer/modti3.c:3-11.  `sign` is unsigned, so `a + sign ^ sign` is
computed modulo 2^128; `-b` is signed. -/
def modti3 (a b : Int) : Option Int :=
  let sign := toU (sign127 a)
  match (if b < 0 then chk128 (-b) else some b) with
  | none => none
  | some b' =>
    let t := (toU a + sign) % 2^128
    match udivmodti4 (if sign = 0 then t else 2^128 - 1 - t) (toU b') with
    | none => none
    | some (_, r) =>
      let u := (r + sign) % 2^128
      some (toS (if sign = 0 then u else 2^128 - 1 - u))

/-- Arithmetic right shift of a 64-bit pattern (`int64_t >> k`, 0 ≤ k < 64), result as a pattern. -/
def sar64 (h k : Nat) : Nat := if h < 2^63 then h >>> k else (2^64 - 1) - ((2^64 - 1 - h) >>> k)

/-- Sign extension of a 64-bit pattern to a 128-bit pattern. -/
def sext (h : Nat) : Nat := if h < 2^63 then h else h + (2^128 - 2^64)

/-- `__ashlti3`, src/soft/integer/ashlti3.c:3-14, on bit patterns.
Left shifts of signed operands are taken modulo 2^64 / 2^128, as clang compiles them. -/
def ashlti3 (x shift : Nat) : Nat :=
  let high := (x >>> 64) % 2^64
  let low := x % 2^64
  if shift &&& 64 ≠ 0 then ((low <<< (shift &&& 63)) % 2^64) <<< 64 % 2^128
  else if shift ≠ 0 then
    (((high <<< shift) % 2^64 ||| low >>> (64 - shift)) <<< 64) % 2^128 ||| (low <<< shift) % 2^64
  else x

/-- `__lshrti3`, src/soft/integer/lshrti3.c:3-14 -/
def lshrti3 (x shift : Nat) : Nat :=
  let high := (x >>> 64) % 2^64
  let low := x % 2^64
  if shift &&& 64 ≠ 0 then high >>> (shift &&& 63)
  else if shift ≠ 0 then
    ((high >>> shift) <<< 64) % 2^128 ||| ((high <<< (64 - shift)) % 2^64 ||| low >>> shift)
  else x

/-- `__ashrti3`, src/soft/integer/ashrti3.c:3-14, on bit patterns. -/
def ashrti3 (x shift : Nat) : Nat :=
  let high := (x >>> 64) % 2^64
  let low := x % 2^64
  if shift &&& 64 ≠ 0 then sext (sar64 high (shift &&& 63))
  else if shift ≠ 0 then
    ((sext (sar64 high shift)) <<< 64) % 2^128 ||| ((high <<< (64 - shift)) % 2^64 ||| low >>> shift)
  else x

end Verif.Int128
