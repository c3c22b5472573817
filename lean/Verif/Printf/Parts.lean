import Verif.Str.Model
import Verif.Utf.Model
import Verif.Stdio.Model

/-!
# Model of formatted output: integers, characters, strings

The parts of `src/stdio/vfprintf.c` that the conversions share, and the conversions other than the
floating-point ones. The conventions are described in `Verif.Printf.Model`.
-/


namespace Verif.Printf

open Str (Mem)

/-- `struct Spec`, vfprintf.c:197-203. -/
structure Opts where
  flags : Nat
  width : Int
  precision : Int
  length : Nat
deriving DecidableEq, Repr

/-- The effects of a conversion or a call: whether a digit buffer was overrun, the writes, the value
returned, and the stores of `%n` (address, size, value). -/
structure Out where
  fault : Bool
  chunks : List (List Nat)
  ret : Int
  stores : List (Nat × Nat × Nat)
deriving DecidableEq, Repr

/-- `DECIMAL_DIGITS(intmax_t)`, vfprintf.c:14: the arithmetic is that of the macro. -/
def signedDigits : Nat := (8 * 8 + 199999 - 1 * 30103) / 100000

/-- `DECIMAL_DIGITS(uintmax_t)`, vfprintf.c:14. -/
def unsignedDigits : Nat := (8 * 8 + 199999 - 0 * 30103) / 100000

/-- vfprintf.c:29-42: the address where the search ends. -/
def strnlenWords (L : Nat) (m : Mem) (length a : Nat) : Option Nat :=
  match Str.memchrScan L m 0 (Str.strlenHit m) length a with
  | none => none
  | some none => some (a + length)
  | some (some t) => some t

/-- vfprintf.c:22-42; `length--` at 0 leaves SIZE_MAX. -/
def strnlenFrom (L : Nat) (m : Mem) (length a : Nat) : Option Nat :=
  if a % 8 ≠ 0 then
    match length with
    | 0 => strnlenWords L m 4294967295 a
    | k + 1 => if a < L then if m a = 0 then some a else strnlenFrom L m k (a + 1) else none
  else strnlenWords L m length a

/-- `strnlen_`, vfprintf.c:18-43. -/
def strnlen (L : Nat) (m : Mem) (s length : Nat) : Option Nat := (strnlenFrom L m length s).map (· - s)

/-- The constant of vfprintf.c:47. -/
def flagMask : Nat := 2 ^ 13 ||| 2 ^ 11 ||| 2 ^ 0 ||| 2 ^ 3 ||| 2 ^ 16 ||| 2 ^ 7

/-- `flag_`, vfprintf.c:45-52. -/
def flag (c : Nat) : Nat :=
  if 32 ≤ c ∧ c - 32 < 32 then flagMask &&& 2 ^ (c - 32) else 0

/-- `flags & FLAG(c)`, vfprintf.c:15. -/
def has (flags c : Nat) : Bool := flags.testBit (c - 32)

/-- `signchar_`, vfprintf.c:54-66: nothing or one character. -/
def signchar (sign : Bool) (flags : Nat) : List Nat :=
  if sign then [45] else if has flags 43 then [43] else if has flags 32 then [32] else []

/-- `pad_`, vfprintf.c:78-88. -/
def pad (c length : Nat) : List (List Nat) :=
  List.replicate (length / 8) (List.replicate 8 c) ++ [List.replicate (length % 8) c]

/-- `octal_`, vfprintf.c:90-96: the digits written before `s`. -/
def octal (x : Nat) (s : List Nat) : List Nat :=
  if h : x = 0 then s else octal (x >>> 3) (((x &&& 7) + 48) :: s)
termination_by x
decreasing_by rw [Nat.shiftRight_eq_div_pow]; omega

/-- vfprintf.c:103-104, with 32-bit arithmetic. -/
def decimalLow (y : Nat) (s : List Nat) : List Nat :=
  if h : y = 0 then s else decimalLow (y / 10) ((y % 10 + 48) :: s)
termination_by y
decreasing_by omega

/-- `decimal_`, vfprintf.c:98-107. -/
def decimal (x : Nat) (s : List Nat) : List Nat :=
  if h : x > 4294967295 then decimal (x / 10) ((x % 10 + 48) :: s) else decimalLow x s
termination_by x
decreasing_by omega

/-- `hexadecimal_`, vfprintf.c:109-115. -/
def hexadecimal (x : Nat) (s : List Nat) (lower : Nat) : List Nat :=
  if h : x = 0 then s
  else
    hexadecimal (x >>> 4)
      (([48, 49, 50, 51, 52, 53, 54, 55, 56, 57, 65, 66, 67, 68, 69, 70].getD (x &&& 0xF) 0 ||| lower) :: s) lower
termination_by x
decreasing_by rw [Nat.shiftRight_eq_div_pow]; omega

/-- The loop of `field_`, vfprintf.c:124-132: value, overflow, rest of the format. -/
def fieldDigits : List Nat → Nat → Bool → Nat × Bool × List Nat
  | [], value, overflow => (value, overflow, [])
  | c :: cs, value, overflow =>
    if 48 ≤ c ∧ c < 58 then
      let next := (value * 10 + (c - 48)) % 2 ^ 32
      fieldDigits cs next (overflow || decide (429496729 < value) || decide (next < c - 48))
    else (value, overflow, c :: cs)

/-- `field_`, vfprintf.c:117-138. -/
def field (s : List Nat) (args : List Int) : Option (Int × List Nat × List Int) :=
  if s.head? = some 42 then
    match args with
    | [] => none
    | a :: args => some (s32 (u32 a), s.tail, args)
  else
    match fieldDigits s 0 false with
    | (value, overflow, rest) =>
      some (if overflow ∨ 2147483647 < value then 2147483647 else (value : Int), rest, args)

/-- `length_`, vfprintf.c:140-155; `c << 2 | k` is `4 * c + k` for `k < 4`. -/
def lengthCode : List Nat → Nat
  | [] => 0
  | c :: cs =>
    if c = 104 then 104 * 4 + (1 + if cs.head? = some 104 then 1 else 0)
    else if c = 108 then 108 * 4 + (1 + if cs.head? = some 108 then 1 else 0)
    else if c = 106 ∨ c = 122 ∨ c = 116 ∨ c = 76 then c * 4 + 1
    else 0

/-- `pop_signed_`, vfprintf.c:157-175, of the argument `v`. -/
def popSigned (length : Nat) (v : Int) : Int :=
  if length = 0 then s32 (u32 v)
  else if length = 104 * 4 + 1 then (u32 v % 65536 + 32768) % 65536 - 32768
  else if length = 104 * 4 + 2 then (u32 v % 256 + 128) % 256 - 128
  else if length = 108 * 4 + 1 then s32 (u32 v)
  else if length = 108 * 4 + 2 then s64 (u64 v)
  else if length = 106 * 4 + 1 then s64 (u64 v)
  else s32 (u32 v)

/-- `pop_unsigned_`, vfprintf.c:177-195, of the argument `v`. -/
def popUnsigned (length : Nat) (v : Int) : Nat :=
  if length = 0 then u32 v
  else if length = 104 * 4 + 1 then u32 v % 65536
  else if length = 104 * 4 + 2 then u32 v % 256
  else if length = 108 * 4 + 1 then u32 v
  else if length = 108 * 4 + 2 then u64 v
  else if length = 106 * 4 + 1 then u64 v
  else u32 v

/-- The order of the parts: vfprintf.c:218-234, 250-263, 279-292 and 310-326. -/
def arrange (sp : Opts) (pre : List (List Nat)) (zeros padding : Int) (digits : List Nat) : List (List Nat) :=
  if has sp.flags 45 then pre ++ pad 48 zeros.toNat ++ [digits] ++ pad 32 padding.toNat
  else if has sp.flags 48 ∧ sp.precision < 0 then pre ++ pad 48 (zeros + padding).toNat ++ [digits]
  else pad 32 padding.toNat ++ pre ++ pad 48 zeros.toNat ++ [digits]

/-- `convert_i_`, vfprintf.c:205-236. The width is not negative, so only the sum of line 215 can overflow. -/
def convertI (sp : Opts) (arg : Int) : Option Out :=
  match if arg < 0 then chk64 (-arg) else some arg with
  | none => none
  | some x =>
    let ds := decimal x.toNat []
    let sign := signchar (arg < 0) sp.flags
    let precision : Int := if sp.precision < 0 then 1 else sp.precision
    let digits : Int := ds.length
    let zeros : Int := if precision > digits then precision - digits else 0
    match chk32 (digits + zeros + sign.length) with
    | none => none
    | some length =>
      let padding : Int := if sp.width > length then sp.width - length else 0
      some ⟨ds.length > signedDigits, arrange sp (sign.map ([·])) zeros padding ds, length + padding, []⟩

/-- `convert_u_`, vfprintf.c:238-265. -/
def convertU (sp : Opts) (arg : Nat) : Option Out :=
  let ds := decimal arg []
  let precision : Int := if sp.precision < 0 then 1 else sp.precision
  let digits : Int := ds.length
  let zeros : Int := if precision > digits then precision - digits else 0
  match chk32 (digits + zeros) with
  | none => none
  | some length =>
    let padding : Int := if sp.width > length then sp.width - length else 0
    some ⟨ds.length > unsignedDigits, arrange sp [] zeros padding ds, length + padding, []⟩

/-- `convert_o_`, vfprintf.c:267-294. -/
def convertO (sp : Opts) (arg : Nat) : Option Out :=
  let ds := octal arg []
  let precision : Int := if sp.precision < 0 then 1 else sp.precision
  let digits : Int := ds.length
  let zeros : Int := if precision > digits then precision - digits else if has sp.flags 35 then 1 else 0
  match chk32 (digits + zeros) with
  | none => none
  | some length =>
    let padding : Int := if sp.width > length then sp.width - length else 0
    some ⟨ds.length > (8 * 8 + 2) / 3, arrange sp [] zeros padding ds, length + padding, []⟩

/-- `convert_x_`, vfprintf.c:296-328. -/
def convertX (sp : Opts) (format : Nat) (arg : Nat) : Option Out :=
  let ds := hexadecimal arg [] (format &&& 0x20)
  let precision : Int := if sp.precision < 0 then 1 else sp.precision
  let digits : Int := ds.length
  let zeros : Int := if precision > digits then precision - digits else 0
  let prefix_ : List Nat := if has sp.flags 35 ∧ arg ≠ 0 then [48, format] else []
  match chk32 (digits + zeros + prefix_.length) with
  | none => none
  | some length =>
    let padding : Int := if sp.width > length then sp.width - length else 0
    some ⟨ds.length > (8 * 8 + 3) / 4, arrange sp [prefix_] zeros padding ds, length + padding, []⟩

/-- `convert_c_`, vfprintf.c:1056-1072. -/
def convertC (sp : Opts) (v : Int) : Out :=
  if sp.length / 4 = 108 then
    match Utf.wcrtomb (u32 v) with
    | (n, bs) => if n = Utf.ERR then ⟨false, [], -3, []⟩ else ⟨false, [bs], n, []⟩
  else ⟨false, [[(v % 256).toNat]], 1, []⟩

/-- A `wchar_t` in memory, least significant byte first. -/
def wide (m : Mem) (a : Nat) : Nat := m a + 256 * m (a + 1) + 65536 * m (a + 2) + 16777216 * m (a + 3)

/-- The loop of vfprintf.c:1082-1096: the writes and the value returned. -/
def convertLs (L : Nat) (m : Mem) (precision : Nat) (a count : Nat) : Option (List (List Nat) × Int) :=
  if a + 4 ≤ L then
    if wide m a = 0 then some ([], count)
    else
      match Utf.wcrtomb (wide m a) with
      | (n, bs) =>
        if n = Utf.ERR then some ([], -3)
        else if precision < count + n then some ([], count)
        else
          match convertLs L m precision (a + 4) (count + n) with
          | none => none
          | some (cs, r) => some (bs :: cs, r)
  else none
termination_by L - a

/-- `convert_s_`, vfprintf.c:1074-1105. -/
def convertS (L : Nat) (m : Mem) (sp : Opts) (v : Int) : Option Out :=
  let precision : Nat := if sp.precision < 0 then 4294967295 else sp.precision.toNat
  if sp.length / 4 = 108 then
    match convertLs L m precision (u32 v) 0 with
    | none => none
    | some (cs, r) => some ⟨false, cs, r, []⟩
  else
    match strnlen L m (u32 v) precision with
    | none => none
    | some n => some ⟨false, [(List.range n).map fun i => m (u32 v + i)], n, []⟩

/-- `convert_p_`, vfprintf.c:1107-1123. -/
def convertP (v : Int) : Out :=
  if u32 v = 0 then ⟨false, [[78, 85, 76, 76]], 4, []⟩
  else
    let ds := hexadecimal (u32 v) [] 0
    ⟨ds.length > (4 * 8 + 3) / 4, [[48, 120], ds], ds.length + 2, []⟩

/-- `store_n_`, vfprintf.c:1125-1151: the size of the object stored to. -/
def storeSize (length : Nat) : Nat :=
  if length = 0 then 4
  else if length = 104 * 4 + 1 then 2
  else if length = 104 * 4 + 2 then 1
  else if length = 108 * 4 + 1 then 4
  else if length = 108 * 4 + 2 then 8
  else if length = 106 * 4 + 1 then 8
  else 4

/-- `store_n_`, vfprintf.c:1125-1151. -/
def storeN (sp : Opts) (count : Nat) (v : Int) : Out :=
  ⟨false, [], 0, [(u32 v, storeSize sp.length, count % 2 ^ (8 * storeSize sp.length))]⟩

end Verif.Printf
