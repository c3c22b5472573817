import Verif.Printf.Parts
import Verif.Float.Arith

/-!
# Model of formatted output: floating-point numbers

The conversions `f`, `F`, `a` and `A` of `src/stdio/vfprintf.c`. A `double` is its bit pattern; the operations
on doubles are those of `Verif.Float.Fmt` (rounding to nearest).

Large numbers are arrays of limbs, 9 decimal digits each, least significant first. A list holds the elements
that have been written; the elements behind it are indeterminate. The arrays of variable length on the stack
appear as capacities: a store behind the capacity is recorded in `fault`.
-/

namespace Verif.Printf

open Verif.Float

/-- The chunk of a sign character, if any. -/
def put (cs : List Nat) : List (List Nat) := cs.map ([·])

/-- `(spec.width > length) * (spec.width - length)`, with `length` not negative. -/
def padding (sp : Opts) (length : Int) : Int := if sp.width > length then sp.width - length else 0

/-- `nonfinite_`, vfprintf.c:330-347. -/
def nonfinite (sp : Opts) (lower : Nat) (sign : List Nat) (s : List Nat) : Out :=
  let length : Int := 3 + sign.length
  let padding := padding sp length
  ⟨false,
    (if has sp.flags 45 then [] else pad 32 padding.toNat) ++ put sign ++ [s.map (· ||| lower)] ++
      (if has sp.flags 45 then pad 32 padding.toNat else []),
    length + padding, []⟩

/-- The layout shared by vfprintf.c:673-696 and 718-741: sign, padding, body. -/
def arrangeF (sp : Opts) (sign : List Nat) (padding : Int) (body : List (List Nat)) : List (List Nat) :=
  if has sp.flags 45 then put sign ++ body ++ pad 32 padding.toNat
  else if has sp.flags 48 then put sign ++ pad 48 padding.toNat ++ body
  else pad 32 padding.toNat ++ put sign ++ body

/-- `pointed`, vfprintf.c:593, 661, 701. -/
def pointed (sp : Opts) : Bool := decide (sp.precision ≠ 0) || has sp.flags 35

/-! ## Limbs -/

/-- The base. -/
def B : Nat := 1000000000

/-- `__builtin_ctzll` of a number that is not 0. -/
def ctz : Nat → Nat → Nat
  | 0, _ => 0
  | k + 1, x => if x % 2 = 1 then 0 else ctz k (x / 2) + 1

/-- `kernel_ifrexp_`, vfprintf.c:349-356. -/
def kernelIfrexp (magnitude : Nat) : Nat × Int :=
  let significand := magnitude % 2 ^ 52 ||| 2 ^ 52
  let shift := ctz 64 significand
  (significand >>> shift, ((magnitude >>> 52 : Nat) : Int) + shift - 1075)

/-- `ifrexp_`, vfprintf.c:358-365. -/
def ifrexp (magnitude : Nat) : Nat × Int :=
  if magnitude < 2 ^ 52 then (magnitude, if magnitude = 0 then 0 else -1074) else kernelIfrexp magnitude

/-- `limbs_set_u64_`, vfprintf.c:367-376. -/
def limbsSet64 (i : Nat) : List Nat :=
  let q := i / B
  [i % B, q % B, q / B].take (if q / B ≠ 0 then 3 else if q % B ≠ 0 then 2 else if i % B ≠ 0 then 1 else 0)

/-- `limbs_set_u18d_`, vfprintf.c:378-384; the second limb is stored in 32 bits. -/
def limbsSet18 (i : Nat) : List Nat :=
  [i % B, i / B % 2 ^ 32].take (if i / B % 2 ^ 32 ≠ 0 then 2 else if i % B ≠ 0 then 1 else 0)

/-- The inner loop of `limbs_mul_`, vfprintf.c:394-399, from the element `k` of the product. -/
def mulRow (x : Nat) : List Nat → Nat → List Nat → List Nat
  | [], _, p => p
  | y :: ys, k, p =>
    let z := (x * y + p.getD k 0) % 2 ^ 64
    let p := p.set k (z % B)
    mulRow x ys (k + 1) (p.set (k + 1) ((p.getD (k + 1) 0 + z / B) % 2 ^ 32))

/-- The outer loop, vfprintf.c:393-400. -/
def mulRows : List Nat → List Nat → Nat → List Nat → List Nat
  | [], _, _, p => p
  | x :: xs, ys, i, p => mulRows xs ys (i + 1) (mulRow x ys i p)

/-- `limbs_mul_`, vfprintf.c:386-402: the elements written and the number returned. -/
def limbsMul (x y : List Nat) : List Nat × Nat :=
  let n := x.length + y.length
  let p := mulRows x y 0 (List.replicate n 0)
  (p, n - if p.getD (n - 1) 0 = 0 then 1 else 0)

/-- `bits_to_limbs_`, vfprintf.c:404-407. -/
def bitsToLimbs (bits : Nat) : Nat := (bits * 30103 + 899999) / 900000

/-- The loops of vfprintf.c:420-436 and 465-481: `y` is squared for every bit of `power` and the product
multiplied by it for every bit that is set. `ycap` and `pcap` are the lengths of the arrays. -/
def powLoop (ycap pcap : Nat) (power : Nat) (y p : List Nat) (xn : Nat) (fault : Bool) : Bool × List Nat × Nat :=
  if h : power = 0 then (fault, p, xn)
  else
    match limbsMul y y with
    | (y', yn) =>
      let fault := fault || decide (ycap < y'.length)
      let y := y'.take yn
      if power % 2 = 1 then
        match limbsMul (p.take xn) y with
        | (p, xn) => powLoop ycap pcap (power / 2) y p xn (fault || decide (pcap < p.length))
      else powLoop ycap pcap (power / 2) y p xn fault
termination_by power
decreasing_by all_goals omega

/-- `limbs_ldexp_`, vfprintf.c:409-438. -/
def limbsLdexp (pcap : Nat) (v : List Nat) (shift : Nat) : Bool × List Nat × Nat :=
  match limbsMul v (limbsSet64 (2 ^ (shift % 64))) with
  | (p, xn) =>
    let ycap := bitsToLimbs (shift / 64 * 64) + 2
    powLoop ycap pcap (shift / 64) [294967296, 4] p xn (decide (pcap < p.length) || decide (ycap < 2))

/-- `exp5_u64_`, vfprintf.c:440-447. -/
def exp5 (power : Nat) : Nat :=
  ((if power.testBit 0 then 10 >>> 1 else 1) * (if power.testBit 1 then 100 >>> 2 else 1) *
    (if power.testBit 2 then 10000 >>> 4 else 1) * (if power.testBit 3 then 100000000 >>> 8 else 1) *
    (if power.testBit 4 then 10000000000000000 >>> 16 else 1)) % 2 ^ 64

/-- `fives_to_limbs_`, vfprintf.c:449-452. -/
def fivesToLimbs (n : Nat) : Nat := (n * 699 + 8999) / 9000

/-- `limbs_scal5n_`, vfprintf.c:454-483. -/
def limbsScal5n (pcap : Nat) (v : List Nat) (power : Nat) : Bool × List Nat × Nat :=
  match limbsMul v (limbsSet64 (exp5 (power % 28))) with
  | (p, xn) =>
    let ycap := fivesToLimbs power
    powLoop ycap pcap (power / 28) [103515625, 6] p xn (decide (pcap < p.length) || decide (ycap < 2))

/-- `limbs_getfrac_`, vfprintf.c:485-502: the pattern of 0, 0.5 or 1. -/
def limbsGetfrac (x : List Nat) (index : Nat) : Nat :=
  if 0 < index then
    let highest := x.getD (index - 1) 0
    if highest < 500000000 then 0
    else if highest = 500000000 then
      if (x.take (index - 1)).any (· ≠ 0) then 0x3FF0000000000000 else 0x3FE0000000000000
    else 0x3FF0000000000000
  else 0

/-- `exp10_limb_`, vfprintf.c:504-510. -/
def exp10Limb (power : Nat) : Nat :=
  ((if power.testBit 0 then 10 else 1) * (if power.testBit 1 then 100 else 1) *
    (if power.testBit 2 then 10000 else 1) * (if power.testBit 3 then 100000000 else 1)) % 2 ^ 32

/-- Division of positive finite doubles. -/
def div (x y : Nat) : Nat := b64.rnd (b64.mag x * 2 ^ b64.unit) (b64.mag y)

/-- `limb_placed_rint_`, vfprintf.c:512-517. -/
def limbPlacedRint (x place : Nat) : Nat :=
  let factor := exp10Limb place
  b64.whole (b64.rint (div x (b64.ofInt factor))) % 2 ^ 32 * factor % 2 ^ 32

/-- The loop of vfprintf.c:530-533: the limbs and the last index. -/
def carryLoop (xn : Nat) : Nat → Nat → List Nat → Option (List Nat × Nat)
  | 0, _, _ => none
  | fuel + 1, index, x =>
    if index < xn ∧ B ≤ x.getD index 0 then
      if index + 1 < x.length then
        carryLoop xn fuel (index + 1) ((x.set index (x.getD index 0 - B)).set (index + 1) ((x.getD (index + 1) 0 + 1) % 2 ^ 32))
      else none
    else some (x, index)

/-- `limbs_placed_rint_`, vfprintf.c:519-538. -/
def limbsPlacedRint (x : List Nat) (xn : Nat) (place : Int) : Option (List Nat × Nat) :=
  if place ≤ 0 then some (x, xn)
  else if place ≤ 9 * xn then
    let index := place.toNat / 9
    let shift := place.toNat % 9
    if index < x.length then
      let x := x.set index (limbPlacedRint (b64.add (b64.ofInt (x.getD index 0)) (limbsGetfrac x index)) shift)
      (carryLoop xn (xn + 1) index x).map fun r => (r.1, xn + if r.2 = xn then 1 else 0)
    else none
  else some (x, 0)

/-! ## Moderate numbers -/

/-- The loop of vfprintf.c:548-552: the digits and the fraction that is left. -/
def modfDigits : Nat → Nat → List Nat × Nat
  | 0, frac => ([], frac)
  | k + 1, frac =>
    let frac := frac * 10 % 2 ^ 64
    match modfDigits k (frac % 2 ^ 60) with
    | (ds, f) => ((48 + frac >>> 60) :: ds, f)

/-- The loop of vfprintf.c:556-561, on the digits in reverse order. -/
def modfCarry : List Nat → List Nat
  | [] => []
  | [c] => [c]
  | c :: d :: cs => if 57 < c then (c - 10) :: modfCarry ((d + 1) :: cs) else c :: modfCarry (d :: cs)
termination_by l => l.length

/-- `limbs_modf_`, vfprintf.c:540-569: the integer and the digits. -/
def limbsModf (x prec : Nat) : Nat × List Nat :=
  if prec = 0 then (b64.whole (b64.rint x), [])
  else
    let i := b64.whole x
    let frac := b64.whole (b64.mul 0x43B0000000000000 (b64.sub x (b64.ofInt i)))
    match modfDigits (prec - 1) frac with
    | (ds, f) =>
      let last := 48 + b64.whole (b64.rint (b64.mul (b64.ofInt f) 0x3C64000000000000))
      match (modfCarry (last :: ds.reverse)).reverse with
      | [] => (i, [])
      | c :: cs => if 57 < c then ((i + 1) % 2 ^ 64, (c - 10) :: cs) else (i, c :: cs)

/-- `fixed_moderate_`, vfprintf.c:659-697. -/
def fixedModerate (sp : Opts) (sign : List Nat) (magnitude : Nat) : Option Out :=
  match limbsModf magnitude sp.precision.toNat with
  | (truncated, frac) =>
    let ds := if truncated = 0 then [48] else decimal truncated []
    let point : List Nat := if pointed sp then [46] else []
    match chk32 (sign.length + ds.length + point.length + sp.precision) with
    | none => none
    | some length =>
      let padding := padding sp length
      some ⟨ds.length > unsignedDigits, arrangeF sp sign padding ([ds] ++ put point ++ [frac]), length + padding, []⟩

/-! ## Small numbers -/

/-- `dump_limb_`, vfprintf.c:571-578. -/
def dumpLimb (x : Nat) : List Nat :=
  [x / 100000000 % 10 + 48, x / 10000000 % 10 + 48, x / 1000000 % 10 + 48, x / 100000 % 10 + 48, x / 10000 % 10 + 48,
    x / 1000 % 10 + 48, x / 100 % 10 + 48, x / 10 % 10 + 48, x % 10 + 48]

/-- `limbs_write_`, vfprintf.c:580-588, and the loop of line 625: the limbs below `n` and not below `m`, from the top. -/
def dumpLimbs (x : List Nat) (m n : Nat) : List (List Nat) :=
  (List.range (n - m)).map fun i => dumpLimb (x.getD (n - 1 - i) 0)

/-- vfprintf.c:614-641: the digits behind the point, with whether the digits of a limb overran their buffer. -/
def smallDigits (sp : Opts) (e : Nat) (place : Int) (big : List Nat) (limbs : Nat) : Bool × List (List Nat) :=
  if limbs ≠ 0 then
    let index := if 0 ≤ place then place.toNat / 9 else 0
    let cut := if 0 ≤ place then place.toNat % 9 else 0
    let zeros : List (List Nat) := if place < 0 then pad 48 (-place).toNat else []
    if index + 1 < limbs then
      let top := decimal (big.getD (limbs - 1) 0) []
      (decide (9 < top.length),
        pad 48 (u32 ((e : Int) - 9 * (limbs - 1 : Nat) - top.length)) ++ [top] ++ dumpLimbs big (index + 1) (limbs - 1) ++
          [(dumpLimb (big.getD index 0)).take (9 - cut)] ++ zeros)
    else
      let top := decimal (big.getD index 0 / exp10Limb cut) []
      (decide (9 < top.length), pad 48 (u32 ((e : Int) - 9 * index - (top.length + cut))) ++ [top] ++ zeros)
  else (false, pad 48 sp.precision.toNat)

/-- `common_fixed_small_`, vfprintf.c:590-647, with `-exp` for `e`. -/
def commonFixedSmall (sp : Opts) (sign : List Nat) (base : List Nat) (e : Nat) : Option Out :=
  let point : List Nat := if pointed sp then [46] else []
  match chk32 (sign.length + 1 + point.length + sp.precision) with
  | none => none
  | some length =>
    let padding := padding sp length
    let place := (e : Int) - sp.precision
    match limbsScal5n (fivesToLimbs e + 2) base e with
    | (fault, big, n) =>
      match limbsPlacedRint big n place with
      | none => none
      | some (big, limbs) =>
        match smallDigits sp e place big limbs with
        | (over, ds) =>
          some ⟨fault || over,
            (if has sp.flags 45 || has sp.flags 48 then [] else pad 32 padding.toNat) ++ put sign ++
              (if !has sp.flags 45 && has sp.flags 48 then pad 48 (padding + 1).toNat else [[48]]) ++ put point ++ ds ++
              (if has sp.flags 45 then pad 32 padding.toNat else []),
            length + padding, []⟩

/-- `fixed_small_`, vfprintf.c:649-657. -/
def fixedSmall (sp : Opts) (sign : List Nat) (magnitude : Nat) : Option Out :=
  match ifrexp magnitude with
  | (odd, shift) => commonFixedSmall sp sign (limbsSet18 odd) (-shift).toNat

/-! ## Large numbers -/

/-- `fixed_bigint_`, vfprintf.c:699-742. -/
def fixedBigint (sp : Opts) (sign : List Nat) (magnitude : Nat) : Option Out :=
  match kernelIfrexp magnitude with
  | (odd, shift) =>
    match limbsLdexp (bitsToLimbs (magnitude >>> 52 - 1022) + 1) (limbsSet18 odd) shift.toNat with
    | (fault, big, limbs) =>
      let top := decimal (big.getD (limbs - 1) 0) []
      let point : List Nat := if pointed sp then [46] else []
      let length := s32 ((sign.length + top.length + 9 * (limbs - 1) + point.length + sp.precision.toNat) % 2 ^ 32)
      match chk32 (sp.width - length) with
      | none => none
      | some _ =>
        let padding := padding sp length
        some ⟨fault || decide (9 < top.length),
          arrangeF sp sign padding ([top] ++ dumpLimbs big 0 (limbs - 1) ++ put point ++ pad 48 sp.precision.toNat),
          length + padding, []⟩

/-- `fixed_`, vfprintf.c:744-761. -/
def fixed (sp : Opts) (lower x : Nat) : Option Out :=
  let sign := signchar (b64.neg x) sp.flags
  let bits := b64.abs x
  if bits < 0x3F70000000000000 then fixedSmall sp sign bits
  else if bits < 0x43F0000000000000 then fixedModerate sp sign bits
  else if bits < 0x7FF0000000000000 then fixedBigint sp sign bits
  else some (nonfinite sp lower sign (if bits = 0x7FF0000000000000 then [73, 78, 70] else [78, 65, 78]))

/-- `floatspec_`, vfprintf.c:1153-1159. -/
def floatspec (sp : Opts) : Opts := if sp.precision < 0 then { sp with precision := 6 } else sp

/-- `convert_f_`, vfprintf.c:763-774, called as in line 1178; `LDBL_MANT_DIG` is 113. -/
def convertF (sp : Opts) (lower : Nat) (args : List Int) : Option (Out × List Int) :=
  if sp.length = 76 * 4 + 1 then some (⟨false, [], -2, []⟩, args)
  else
    match args with
    | [] => none
    | v :: args => (fixed (floatspec sp) lower (v % 2 ^ 64).toNat).map (·, args)

/-! ## Hexadecimal -/

/-- What differs between `hexfloat_` and `hexfloatq_`: the format, the width of the word and of the buffer. -/
structure HexFmt where
  fmt : Fmt
  word : Nat
  size : Nat

def hex64 : HexFmt := ⟨b64, 64, 24⟩
def hex128 : HexFmt := ⟨b128, 128, 40⟩

/-- The digits of a fraction. -/
def HexFmt.digits (H : HexFmt) : Nat := H.fmt.f / 4

/-- `"0123456789ABCDEF"[d] | lower`. -/
def hexChar (d lower : Nat) : Nat := [48, 49, 50, 51, 52, 53, 54, 55, 56, 57, 65, 66, 67, 68, 69, 70].getD d 0 ||| lower

/-- The loop of vfprintf.c:804-805 and 934-935; the word is 0 after as many steps as it has digits. -/
def hexTop (word lower : Nat) : Nat → Nat → List Nat
  | 0, _ => []
  | k + 1, i => if i = 0 then [] else hexChar (i >>> (word - 4)) lower :: hexTop word lower k (i * 16 % 2 ^ word)

/-- The loop of vfprintf.c:838-839 and 971-972: what is left and the digits written before `s`. -/
def hexLow (lower : Nat) (x : Nat) (s : List Nat) : Nat × List Nat :=
  if h : 0xF < x then hexLow lower (x >>> 4) (hexChar (x % 16) lower :: s) else (x, s)
termination_by x
decreasing_by rw [Nat.shiftRight_eq_div_pow]; omega

/-- The loop of vfprintf.c:870-873 and 1003-1006: the last `n` digits of `x`. -/
def hexFixed (lower : Nat) : Nat → Nat → List Nat
  | 0, _ => []
  | n + 1, x => hexFixed lower n (x >>> 4) ++ [hexChar (x % 16) lower]

/-- The layout of the three forms: the buffer is written whole or, with padding by zeros, in two parts. -/
def arrangeA (sp : Opts) (sign : List Nat) (padding : Int) (head middle : List Nat) (rest : List (List Nat)) (joined : Bool) :
    List (List Nat) :=
  if has sp.flags 45 then put sign ++ (if joined then [head ++ middle] else [head]) ++ rest ++ pad 32 padding.toNat
  else if has sp.flags 48 then put sign ++ [head] ++ pad 48 padding.toNat ++ (if joined then [middle] else []) ++ rest
  else pad 32 padding.toNat ++ put sign ++ (if joined then [head ++ middle] else [head]) ++ rest

/-- `hexfloat_`, vfprintf.c:776-903, and `hexfloatq_`, vfprintf.c:905-1039. The shift of line 801 is one of a
signed integer, which overflows for all but the smallest subnormal numbers; it is taken to wrap, as clang and
GCC have it. -/
def hexfloat (H : HexFmt) (sp : Opts) (lower x : Nat) : Option Out :=
  let F := H.fmt
  let sign := signchar (F.neg x) sp.flags
  if F.abs x = F.inf then some (nonfinite sp lower sign [73, 78, 70])
  else if F.inf < F.abs x then some (nonfinite sp lower sign [78, 65, 78])
  else
    let magnitude := F.abs x
    let biased := magnitude >>> F.f
    let exp : Int := if biased ≠ 0 then (biased : Int) - F.bias else if magnitude ≠ 0 then 1 - (F.bias : Int) else 0
    let head := [48, 88 ||| lower]
    let lead := if biased ≠ 0 then 49 else 48
    let tail := (80 ||| lower) :: (if exp < 0 then 45 else 43) ::
      ((if exp = 0 then [48] else []) ++ decimal exp.natAbs [])
    if sp.precision < 0 then
      let mantissa := magnitude * 2 ^ (H.word - F.f) % 2 ^ H.word
      let middle := lead :: ((if mantissa ≠ 0 ∨ has sp.flags 35 then [46] else []) ++ hexTop H.word lower (H.word / 4) mantissa)
      let length : Int := sign.length + (2 + middle.length : Nat) + tail.length
      let padding := padding sp length
      some ⟨decide (H.size < 2 + middle.length + tail.length), arrangeA sp sign padding head middle [tail] true,
        length + padding, []⟩
    else if sp.precision < H.digits then
      let p := sp.precision.toNat
      let significand := magnitude % 2 ^ F.f ||| (if biased ≠ 0 then 2 ^ F.f else 0)
      let low := significand * 2 ^ (H.word - F.f + 4 * p) % 2 ^ H.word
      let high := significand >>> (F.f - 4 * p)
      let carry := if 2 ^ (H.word - 1) < (high &&& 1 ||| low) then 1 else 0
      match hexLow lower (high + carry) tail with
      | (rounded, tail) =>
        let tail := hexChar (rounded % 16) lower :: ((if pointed sp then [46] else []) ++ tail)
        let length : Int := sign.length + 2 + tail.length
        let padding := padding sp length
        some ⟨decide (H.size < 2 + tail.length), arrangeA sp sign padding head [] [tail] false, length + padding, []⟩
    else
      let middle := lead :: 46 :: hexFixed lower H.digits magnitude
      let zeros := sp.precision - H.digits
      match chk32 (sign.length + (2 + middle.length : Nat) + zeros + tail.length) with
      | none => none
      | some length =>
        let padding := padding sp length
        some ⟨decide (H.size < 2 + middle.length + tail.length),
          arrangeA sp sign padding head middle (pad 48 zeros.toNat ++ [tail]) true, length + padding, []⟩

/-- `convert_a_`, vfprintf.c:1041-1054 (called in line 1181). -/
def convertA (sp : Opts) (lower : Nat) (args : List Int) : Option (Out × List Int) :=
  match args with
  | [] => none
  | v :: args =>
    (if sp.length = 76 * 4 + 1 then hexfloat hex128 sp lower (v % 2 ^ 128).toNat
     else hexfloat hex64 sp lower (v % 2 ^ 64).toNat).map (·, args)

end Verif.Printf
