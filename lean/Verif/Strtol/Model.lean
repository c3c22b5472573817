import Verif.Base
import Verif.Ctype.Model

/-!
# Model of the integer parsers (src/stdlib/parse/integer.h, digit.h, strtol.c, strtoll.c, strtoul.c,
strtoull.c, atoi.h)

A C string is the list of its characters (values of `char`, which is signed) before the
terminator; reading at the end of the list reads the terminator 0. `Integer` has `N` bits
(32 for `long`, 64 for `long long`) and is signed or not.
-/

namespace Verif.Strtol

/-- The character at the cursor. -/
def cur (s : List Int) : Int := s.head?.getD 0

/-- `digit_`, src/stdlib/parse/digit.h:1-12; the argument is converted to `unsigned`. -/
def digit (ch : Int) : Nat :=
  let c := u32 ch
  if (c + 4294967248) % 4294967296 < 10 then (c + 4294967248) % 4294967296
  else
    let c := c ||| 32
    if (c + 4294967199) % 4294967296 < 26 then ((c + 4294967199) % 4294967296 + 10) % 4294967296
    else 4294967295

/-- The white space loop, integer.h:10-11 (and atoi.h:8-9): the remaining string and the number of
characters skipped. -/
def skipSpace : List Int → Option (List Int × Nat)
  | [] => (Ctype.isspace 0).bind fun r => if r ≠ 0 then none else some ([], 0)
  | c :: s => (Ctype.isspace c).bind fun r =>
      if r ≠ 0 then (skipSpace s).map fun (s', k) => (s', k + 1) else some (c :: s, 0)

/-- State of the digit loop. -/
structure Acc where
  magnitude : Nat
  overflow : Bool

/-- The digit loop, integer.h:38-43, in unsigned arithmetic modulo 2^N: the final accumulator and the
number of digits consumed. -/
def digitLoop (N base threshold : Nat) : List Int → Acc → Acc × Nat
  | [], a => (a, 0)
  | c :: s, a =>
    if digit c < base then
      let next := (a.magnitude * base + digit c) % 2 ^ N
      let r := digitLoop N base threshold s
        ⟨next, a.overflow || decide (threshold < a.magnitude) || decide (next < digit c)⟩
      (r.1, r.2 + 1)
    else (a, 0)

/-- Conversion of an unsigned value to `Integer`; wraps for the signed types. -/
def toInteger (N : Nat) (signed : Bool) (n : Nat) : Int :=
  if signed ∧ 2 ^ (N - 1) ≤ n then (n : Int) - 2 ^ N else n

/-- What the parsers return: the value, the offset stored through `pointer`, and whether errno was
set to ERANGE. -/
structure Result where
  value : Int
  stop : Nat
  erange : Bool
  deriving DecidableEq, Repr

/-- `parseint_`, src/stdlib/parse/integer.h:5-54. `none` is undefined behaviour: the signed
multiplication of line 53 overflows (or `isspace` does). -/
def parseint (N : Nat) (signed : Bool) (str : List Int) (base max : Nat) : Option Result := do
  let (s, k) ← skipSpace str
  let neg : Bool := cur s = 45
  let max := if neg ∧ signed then max + 1 else max
  let (s, k) := if cur s = 45 ∨ cur s = 43 then (s.tail, k + 1) else (s, k)
  let hex : Bool := cur s = 48 ∧ (base = 0 ∨ base = 16) ∧ u32 (cur s.tail) ||| 32 = 120
  let (s, k, base, stop) :=
    if hex then (s.tail.tail, k + 2, 16, k + 1)
    else (s, k, if base = 0 then (if cur s = 48 then 8 else 10) else base, 0)
  let (acc, n) := digitLoop N base ((2 ^ N - 1) / base) s ⟨0, false⟩
  let stop := if n = 0 then stop else k + n
  if acc.overflow ∨ max < acc.magnitude then
    return ⟨toInteger N signed (if neg ∧ signed then (2 ^ N - max) % 2 ^ N else max), stop, true⟩
  else if signed then
    let r := (if neg then -1 else 1) * toInteger N true acc.magnitude
    if -2 ^ (N - 1) ≤ r ∧ r < 2 ^ (N - 1) then return ⟨r, stop, false⟩ else none
  else
    return ⟨((if neg then 2 ^ N - 1 else 1) * acc.magnitude % 2 ^ N : Nat), stop, false⟩

/-- src/stdlib/strtol.c:7-10 (`long` is 32-bit). -/
def strtol (s : List Int) (base : Nat) : Option Result := parseint 32 true s base 2147483647
/-- src/stdlib/strtoll.c:7-10. -/
def strtoll (s : List Int) (base : Nat) : Option Result := parseint 64 true s base 9223372036854775807
/-- src/stdlib/strtoul.c:6-9. -/
def strtoul (s : List Int) (base : Nat) : Option Result := parseint 32 false s base 4294967295
/-- src/stdlib/strtoull.c:6-9. -/
def strtoull (s : List Int) (base : Nat) : Option Result := parseint 64 false s base 18446744073709551615

/-- The digit loop of atoi.h:19-22. The product is signed (overflow is undefined); the sum is
unsigned for `int` and `long`, whose width is that of `unsigned`, and signed for `long long`. -/
def atoiLoop (N : Nat) : List Int → Int → Option Int
  | [], m => some m
  | c :: s, m =>
    let d := (u32 c + 4294967248) % 4294967296
    if d < 10 then
      let p := 10 * m
      if ¬ (-2 ^ (N - 1) ≤ p ∧ p < 2 ^ (N - 1)) then none
      else if N = 32 then atoiLoop N s (s32 (u32 (p + d)))
      else if -2 ^ (N - 1) ≤ p + d ∧ p + d < 2 ^ (N - 1) then atoiLoop N s (p + d)
      else none
    else some m

/-- `ATOI`, src/stdlib/atoi.h:3-25: `atoi` and `atol` with N = 32, `atoll` with N = 64. -/
def atoi (N : Nat) (str : List Int) : Option Int := do
  let (s, _) ← skipSpace str
  let sign : Int := if cur s = 45 then -1 else 1
  let s := if cur s = 45 ∨ cur s = 43 then s.tail else s
  let m ← atoiLoop N s 0
  if -2 ^ (N - 1) ≤ sign * m ∧ sign * m < 2 ^ (N - 1) then return sign * m else none

end Verif.Strtol
