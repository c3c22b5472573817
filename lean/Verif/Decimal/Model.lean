import Verif.Strtol.Model
import Verif.Quad.Model

/-!
# Model of the floating-point parsers (src/stdlib/parse/float.h, scientific.h, scientificf.h, pow5.h, bigint.h, nan.h)

Strings are lists of characters as in `Verif.Strtol`; floating-point numbers are bit patterns.  `int` counters of
characters are natural numbers or integers without overflow (a string has fewer than 2^31 characters).  `none` is
undefined behaviour: a store outside a `bigint_t`, an index outside the table of powers.
-/

namespace Verif.Decimal
open Verif.Float Verif.Int128 Verif.Strtol

/-- A truth value as an integer. -/
def bit (p : Prop) [Decidable p] : Nat := if p then 1 else 0

/-- parse/decimal.h:6-12.  `digits` is the rest of the string from `d.digits` on. -/
structure Dec where
  mant : Nat
  exp : Int
  truncated : Bool
  digits : List Int
  total : Nat

/-! ### pow5.h -/

/-- `POW5_SEED_`, pow5.h:16-26. -/
def seeds : List (Nat × Int) :=
  [(0xa000000000000000 * 2 ^ 64, -125),
   (0xc800000000000000 * 2 ^ 64, -123),
   (0x9c40000000000000 * 2 ^ 64, -118),
   (0xbebc200000000000 * 2 ^ 64, -109),
   (0x8e1bc9bf04000000 * 2 ^ 64, -90),
   (0x9dc5ada82b70b59df020000000000000, -53),
   (0xc2781f49ffcfa6d53cbf6b71c76b25fb, 21),
   (0x93ba47c980e98cdfc66f336c36b10137, 170),
   (0xaa7eebfb9df9de8dddbb901b98feeab8, 467)]

/-- The loop of pow5.h:38-46. -/
def pow5Go : List (Nat × Int) → Nat → Nat → Int → Option (Nat × Int)
  | [], k, m, b => if k = 0 then some (m, b) else none
  | s :: t, k, m, b =>
    if k % 2 = 1 then
      let hi := (umulti4 m s.1).2
      let shift := bit (hi / 2 ^ 127 = 0)
      pow5Go t (k / 2) (hi * 2 ^ shift % 2 ^ 128) (b + (s.2 + 128 - shift))
    else pow5Go t (k / 2) m b

/-- `pow5_`, pow5.h:33-49. -/
def pow5 (k : Nat) : Option (Nat × Int) := pow5Go seeds k (2 ^ 127) (-127)

/-! ### bigint.h: lists of limbs of 64 bits, least significant first -/

/-- No more than `BIGINT_LIMBS_` limbs are stored. -/
def cap (b : List Nat) : Option (List Nat) := if b.length ≤ 256 then some b else none

/-- bigint.h:38-44. -/
def mulGo (m : Nat) : List Nat → Nat → List Nat
  | [], carry => if carry ≠ 0 then [carry] else []
  | v :: t, carry => (v * m + carry) % 2 ^ 64 :: mulGo m t ((v * m + carry) / 2 ^ 64)

/-- `bigint_mul_u64_`, bigint.h:31-46. -/
def bigMul (b : List Nat) (m : Nat) : Option (List Nat) := if m = 0 then some [] else cap (mulGo m b 0)

/-- bigint.h:50-59. -/
def addGo : List Nat → Nat → List Nat
  | [], carry => if carry ≠ 0 then [carry] else []
  | v :: t, carry =>
    if carry ≠ 0 then (v + carry) % 2 ^ 64 :: addGo t (bit ((v + carry) % 2 ^ 64 < v)) else v :: t

/-- `bigint_add_u64_`, bigint.h:48-60. -/
def bigAdd (b : List Nat) (a : Nat) : Option (List Nat) := cap (addGo b a)

/-- bigint.h:65-68: `n` multiplications by 5^27. -/
def mulMany : Nat → List Nat → Option (List Nat)
  | 0, b => some b
  | n + 1, b => (bigMul b 7450580596923828125).bind (mulMany n)

/-- bigint.h:70-71. -/
def smallPow : Nat → Nat
  | 0 => 1
  | k + 1 => smallPow k * 5 % 2 ^ 64

/-- `bigint_mul_pow5_`, bigint.h:63-74. -/
def bigMulPow5 (b : List Nat) (k : Nat) : Option (List Nat) :=
  (mulMany (k / 27) b).bind fun b => if 0 < k % 27 then bigMul b (smallPow (k % 27)) else some b

/-- bigint.h:91-97. -/
def shlGo (bits : Nat) : List Nat → Nat → List Nat
  | [], carry => if carry ≠ 0 then [carry] else []
  | v :: t, carry => (v * 2 ^ bits % 2 ^ 64 ||| carry) :: shlGo bits t (v / 2 ^ (64 - bits))

/-- `bigint_shl_`, bigint.h:76-101. -/
def bigShl (b : List Nat) (n : Nat) : Option (List Nat) :=
  if b = [] then some []
  else (cap (List.replicate (n / 64) 0 ++ b)).bind fun b => if n % 64 ≠ 0 then cap (shlGo (n % 64) b 0) else some b

/-- bigint.h:107-110, most significant limb first. -/
def cmpGo : List Nat → List Nat → Int
  | x :: a, y :: b => if x ≠ y then (if x < y then -1 else 1) else cmpGo a b
  | _, _ => 0

/-- `bigint_cmp_`, bigint.h:103-112. -/
def bigCmp (a b : List Nat) : Int :=
  if a.length ≠ b.length then (if a.length < b.length then -1 else 1) else cmpGo a.reverse b.reverse

/-- bigint.h:141-152. -/
def bigDigits : List Int → Nat → List Nat → Option (List Nat)
  | _, 0, b => some b
  | [], _ + 1, _ => none
  | c :: s, rem + 1, b =>
    if c = 46 then bigDigits s (rem + 1) b
    else (bigMul b 10).bind fun b => (if 48 < c then bigAdd b (c - 48).toNat else some b).bind (bigDigits s rem)

/-- `bigint_set_u128_`, bigint.h:24-29. -/
def bigSet (x : Nat) : List Nat :=
  if x / 2 ^ 64 ≠ 0 then [x % 2 ^ 64, x / 2 ^ 64] else if x ≠ 0 then [x] else []

/-- `bigint_cmp_halfway_`, bigint.h:128-166. -/
def halfway (d : Dec) (M : Nat) (q : Int) : Option Int :=
  let p := d.exp - (if 38 < d.total then (d.total : Int) - 38 else 0)
  (bigDigits d.digits d.total []).bind fun lhs =>
  (if 0 ≤ p then bigMulPow5 lhs p.toNat else some lhs).bind fun lhs =>
  (if 0 ≤ p then some (bigSet M) else bigMulPow5 (bigSet M) (-p).toNat).bind fun rhs =>
  let delta := q - p
  (if 0 ≤ delta then some lhs else bigShl lhs (-delta).toNat).bind fun lhs =>
  (if 0 ≤ delta then bigShl rhs delta.toNat else some rhs).bind fun rhs =>
  some (bigCmp lhs rhs)

/-! ### scientific.h -/

/-- `clz_u128_`, scientific.h:9-13, for a nonzero argument. -/
def clz (x : Nat) : Nat := 127 - Nat.log2 x

/-- The loop of scientific.h:26-34 with `i + 1` iterations to go: quotient and remainder. -/
def divGo (lo d : Nat) : Nat → Nat → Nat → Nat × Nat
  | 0, q, rem => (q, rem)
  | i + 1, q, rem =>
    let carry := rem / 2 ^ 127
    let rem := rem * 2 % 2 ^ 128 ||| lo / 2 ^ i % 2
    let q := q * 2 % 2 ^ 128
    if carry ≠ 0 ∨ d ≤ rem then divGo lo d i (q ||| 1) ((rem + 2 ^ 128 - d) % 2 ^ 128) else divGo lo d i q rem

/-- `udiv256by128_`, scientific.h:19-38. -/
def udiv256by128 (hi lo d : Nat) : Nat × Nat := divGo lo d 128 0 hi

/-- scientific.h:64-87: the 128-bit significand, its exponent and whether anything was lost. -/
def scale (d : Dec) : Option (Nat × Int × Bool) :=
  let leading := clz d.mant
  let mant := d.mant * 2 ^ leading % 2 ^ 128
  let binexp := -(leading : Int) + d.exp
  if 0 ≤ d.exp then
    (pow5 d.exp.toNat).bind fun p =>
    let pr := umulti4 mant p.1
    let shift := bit (pr.2 / 2 ^ 127 = 0)
    some (pr.2 * 2 ^ shift % 2 ^ 128 ||| (if shift ≠ 0 then pr.1 / 2 ^ 127 else 0),
      binexp + (p.2 + 128 - shift),
      d.truncated || decide (if shift ≠ 0 then pr.1 % 2 ^ 127 ≠ 0 else pr.1 ≠ 0))
  else
    (pow5 (-d.exp).toNat).bind fun p =>
    let k := if mant < p.1 then 128 else 127
    let qr := if k = 128 then udiv256by128 mant 0 p.1 else udiv256by128 (mant / 2) (mant * 2 ^ 127 % 2 ^ 128) p.1
    some (qr.1, binexp - (p.2 + k), d.truncated || decide (qr.2 ≠ 0))

/-- scientific.h:89-133. -/
def assemble (d : Dec) (mant : Nat) (binexp : Int) (lost : Bool) : Option Nat :=
  let biased := binexp + 127 + 1023
  let shift : Nat := if 1 ≤ biased then 75 else (75 + 1 - biased).toNat
  let biased : Nat := biased.toNat
  let result := if 128 ≤ shift then 0 else mant / 2 ^ shift
  let round : Bool := if 128 ≤ shift then shift = 128 ∧ mant / 2 ^ 127 ≠ 0 else mant / 2 ^ (shift - 1) % 2 = 1
  let sticky : Bool :=
    (if 128 ≤ shift then if shift = 128 then mant % 2 ^ 127 ≠ 0 else mant ≠ 0 else mant % 2 ^ (shift - 1) ≠ 0) || lost
  (if round && d.truncated then
    (halfway d (2 * result + 1) (shift + binexp - 1)).bind fun cmp => some (decide (0 < cmp) || decide (cmp = 0 ∧ result % 2 = 1))
   else some (round && (sticky || decide (result % 2 = 1)))).bind fun up =>
  let result := if up then result + 1 else result
  let biased := if result / 2 ^ 53 ≠ 0 then biased + 1 else if result / 2 ^ 52 ≠ 0 ∧ biased = 0 then 1 else biased
  let result := if result / 2 ^ 53 ≠ 0 then result / 2 else result
  some (if 2047 ≤ biased then 0x7FF0000000000000 else biased * 2 ^ 52 ||| result % 2 ^ 52)

/-- `decimal_to_double_`, scientific.h:47-134. -/
def decToDouble (d : Dec) : Option Nat :=
  if d.mant = 0 then some 0
  else if 309 < d.exp then some 0x7FF0000000000000
  else if d.exp < -380 then some 0
  else (scale d).bind fun s => assemble d s.1 s.2.1 s.2.2

/-- `decimal_to_scalar_` of scientificf.h:18-30. -/
def decToFloat (d : Dec) : Option Nat :=
  (decToDouble d).bind fun y =>
    some (b64.conv b32 (if y % 2 ^ 29 = 2 ^ 28 ∧ d.truncated then y ||| 2 ^ 29 else y))

/-! ### float.h -/

/-- `*s - '0'` as `unsigned`. -/
def dig (c : Int) : Nat := (u32 c + 4294967248) % 4294967296

/-- Number of zeros at the start (float.h:26, 59, 63, 93, 97). -/
def zeros : List Int → Nat
  | c :: s => if c = 48 then zeros s + 1 else 0
  | [] => 0

/-- Number of digits at the start (float.h:31). -/
def digitRun : List Int → Nat
  | c :: s => if dig c < 10 then digitRun s + 1 else 0
  | [] => 0

/-- The loop of float.h:29-37: the magnitude and the number of characters consumed. -/
def expLoop : List Int → Nat → Nat × Nat
  | c :: s, m =>
    if dig c < 10 then
      if 3200 ≤ m then (32000, digitRun s + 1)
      else ((expLoop s (10 * m + dig c)).1, (expLoop s (10 * m + dig c)).2 + 1)
    else (m, 0)
  | [], m => (m, 0)

/-- `parseexp_`, float.h:8-40: the exponent and the number of characters up to the new `*end`, 0 if it is not changed. -/
def parseexp (c : Nat) (s : List Int) : Int × Nat :=
  if u32 (cur s) ||| 32 ≠ c then (0, 0)
  else
    let t := s.tail
    let signed : Bool := cur t = 45 ∨ cur t = 43
    let u := if signed then t.tail else t
    let z := zeros u
    let r := expLoop (u.drop z) 0
    ((if cur t = 45 then -1 else 1) * (r.1 : Int), if z + r.2 = 0 then 0 else 1 + bit (signed = true) + z + r.2)

/-- State of the digit loops. -/
structure Acc where
  x : Nat
  consumed : Nat
  position : Int
  pointed : Bool
  truncated : Bool

/-- The loop of float.h:102-116; also the number of characters consumed. -/
def decLoop : List Int → Acc → Acc × Nat
  | [], a => (a, 0)
  | c :: s, a =>
    if dig c < 10 then
      let a' : Acc := if a.consumed < 38 then { a with x := (10 * a.x + dig c) % 2 ^ 128 }
        else if dig c ≠ 0 then { a with x := a.x ||| 1, truncated := true } else a
      let r := decLoop s { a' with consumed := a.consumed + 1 }
      (r.1, r.2 + 1)
    else if c = 46 ∧ a.pointed = false then
      let r := decLoop s { a with position := a.consumed, pointed := true }
      (r.1, r.2 + 1)
    else (a, 0)

/-- A new value of `*end`: `n` if anything was consumed. -/
def later (old : Option Nat) (consumed n : Nat) : Option Nat := if consumed = 0 then old else some n

/-- `parsedec_`, float.h:84-126: the decimal passed to `decimal_to_scalar_` and the offset stored to `*end`, if any. -/
def parsedec (s : List Int) : Dec × Option Nat :=
  let z1 := zeros s
  let s1 := s.drop z1
  let point : Bool := cur s1 = 46
  let s2 := if point then s1.tail else s1
  let z2 := if point then zeros s2 else 0
  let s3 := s2.drop z2
  let off := z1 + bit (point = true) + z2
  let r := decLoop s3 ⟨0, 0, -z2, point, false⟩
  let position := if r.1.pointed then r.1.position else r.1.consumed
  let e := parseexp 101 (s3.drop r.2)
  (⟨r.1.x, position - min 38 r.1.consumed + e.1, r.1.truncated, s3, r.1.consumed⟩,
    later (later (later (later none z1 z1) z2 off) r.2 (off + r.2)) e.2 (off + r.2 + e.2))

/-- A floating-point type: its format, the digits held by `Bitset`, conversion of decimals and
`ldexp((Scalar)x, n)`. -/
structure Scalar where
  fmt : Fmt
  capacity : Nat
  ofDec : Dec → Option Nat
  ofHex : Nat → Int → Option Nat

/-- The loop of float.h:67-77. -/
def hexLoop (capacity : Nat) : List Int → Acc → Acc × Nat
  | [], a => (a, 0)
  | c :: s, a =>
    if digit c < 16 then
      let r := hexLoop capacity s
        { a with x := a.x * 2 ^ (4 * bit (a.consumed < capacity)) % 2 ^ (4 * capacity) ||| digit c, consumed := a.consumed + 1 }
      (r.1, r.2 + 1)
    else if c = 46 ∧ a.pointed = false then
      let r := hexLoop capacity s { a with position := a.consumed, pointed := true }
      (r.1, r.2 + 1)
    else (a, 0)

/-- `parsehex_`, float.h:47-82. -/
def parsehex (S : Scalar) (s : List Int) : Option Nat × Option Nat :=
  let t := s.tail.tail
  let z1 := zeros t
  let s1 := t.drop z1
  let point : Bool := cur s1 = 46
  let s2 := if point then s1.tail else s1
  let z2 := if point then zeros s2 else 0
  let s3 := s2.drop z2
  let off := 2 + z1 + bit (point = true) + z2
  let r := hexLoop S.capacity s3 ⟨0, 0, -z2, point, false⟩
  let position := if r.1.pointed then r.1.position else r.1.consumed
  let e := parseexp 112 (s3.drop r.2)
  (S.ofHex r.1.x (4 * (position - min S.capacity r.1.consumed) + e.1),
    later (later (later (later (some 1) z1 (2 + z1)) z2 off) r.2 (off + r.2)) e.2 (off + r.2 + e.2))

/-- `match_`, float.h:128-136. -/
def matched : List Int → List Nat → Nat
  | _, [] => 0
  | s, t :: ts => if u32 (cur s) ||| 32 = t then matched s.tail ts + 1 else 0

/-- The loop of nan.h:20-21: the mantissa and the number of characters. -/
def nanLoop (bits base : Nat) : List Int → Nat → Nat × Nat
  | [], m => (m, 0)
  | c :: s, m =>
    if digit c < base then
      ((nanLoop bits base s ((m * base + digit c) % 2 ^ bits)).1, (nanLoop bits base s ((m * base + digit c) % 2 ^ bits)).2 + 1)
    else (m, 0)

/-- `nan_(s, end, ')')`, nan.h:5-30: the pattern and the number of characters consumed, none if `*end` is left before
the parenthesis. -/
def nanTag (F : Fmt) (s : List Int) : Nat × Option Nat :=
  let zero : Bool := cur s = 48
  let hex : Bool := zero ∧ u32 (cur s.tail) ||| 32 = 120
  let k := if hex then 2 else bit (zero = true)
  let base := if hex then 16 else if zero then 8 else 10
  let r := nanLoop (F.f + F.w + 1) base (s.drop k) 0
  if cur (s.drop (k + r.2)) = 41 then (F.nan ||| r.1 % F.signBit, some (k + r.2 + 1)) else (F.nan, none)

/-- The value, the offset stored through `end` if any, and whether errno was set to ERANGE. -/
structure Result where
  bits : Nat
  stop : Nat
  erange : Bool
  deriving DecidableEq, Repr

/-- `magnitude_`, float.h:138-161, at offset `k` of the string. -/
def magnitude (S : Scalar) (s : List Int) (k : Nat) : Option Result :=
  let m := matched s [105, 110, 102, 105, 110, 105, 116, 121]
  if 3 ≤ m then some ⟨S.fmt.inf, k + (if m = 8 then 8 else 3), false⟩
  else if matched s [110, 97, 110] = 3 then
    if cur (s.drop 3) = 40 then
      let r := nanTag S.fmt (s.drop 4)
      some ⟨r.1, k + (match r.2 with | some n => 4 + n | none => 3), false⟩
    else some ⟨S.fmt.nan, k + 3, false⟩
  else
    let r := if cur s = 48 ∧ u32 (cur s.tail) ||| 32 = 120 then parsehex S s
      else (S.ofDec (parsedec s).1, (parsedec s).2)
    r.1.bind fun finite => some ⟨finite, (match r.2 with | some n => k + n | none => 0), finite = S.fmt.inf⟩

/-- `parsefloat_`, float.h:163-184.  The loop over white space is that of `Verif.Strtol.skipSpace`. -/
def parsefloat (S : Scalar) (str : List Int) : Option Result :=
  (skipSpace str).bind fun (s, k) =>
  let signed : Bool := cur s = 45 ∨ cur s = 43
  (magnitude S (if signed then s.tail else s) (k + bit (signed = true))).bind fun r =>
  some { r with bits := S.fmt.pack (cur s = 45) (S.fmt.abs r.bits) }

/-- `double`: strtod.c:1-12. -/
def double : Scalar where
  fmt := b64
  capacity := 16
  ofDec := decToDouble
  ofHex x n := Math.scalbn (b64.ofInt x) n

/-- `float`: strtof.c:1-7. -/
def single : Scalar where
  fmt := b32
  capacity := 8
  ofDec := decToFloat
  ofHex x n := some (Math.scalbnf (b32.ofInt x) n)

/-- strtod.c:14-17. -/
def strtod (s : List Int) : Option Result := parsefloat double s

/-- strtof.c:9-12. -/
def strtof (s : List Int) : Option Result := parsefloat single s

end Verif.Decimal
