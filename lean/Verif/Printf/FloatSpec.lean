import Verif.Printf.Spec
import Verif.Math.Spec

/-!
# What the floating-point conversions mean (C11 7.21.6.1)

An argument is the bit pattern of a `double`. The value of a finite pattern `x` is `size b64 x` units of
`2^-1074`, with its sign; so a decimal `P / 10^p` equals it in magnitude when `P * 2^1074 = size b64 x * 10^p`.
-/

namespace Verif.Printf.Spec

open Verif.Float Verif.Math.Spec

/-- The last `n` digits of `v` in base `b`. -/
def places (b : Nat) (upper : Bool) : Nat → Nat → List Nat
  | 0, _ => []
  | n + 1, v => places b upper n (v / b) ++ [digit upper (v % b)]

/-- The sign of a floating-point conversion. -/
def signF (d : Dir) (neg : Bool) : List Nat :=
  if neg then [45] else if 43 ∈ d.flags then [43] else if 32 ∈ d.flags then [32] else []

/-- Padding to the field width; zeros, if asked for, follow the sign and the prefix. -/
def justifyF (d : Dir) (a : Ask) (pre body : List Nat) : List Nat :=
  let n := a.width - (pre ++ body).length
  if a.minus then pre ++ body ++ List.replicate n 32
  else if 48 ∈ d.flags then pre ++ List.replicate n 48 ++ body
  else List.replicate n 32 ++ pre ++ body

/-- The decimal point: before digits, and with `#` always. -/
def point (d : Dir) (n : Nat) : List Nat := if n ≠ 0 ∨ 35 ∈ d.flags then [46] else []

/-- The number of decimals `f` prints: 6 if the precision is missing. -/
def decimals (a : Ask) : Nat := a.prec.getD 6

/-- The text of `f` for the decimal `P / 10^p`. -/
def fixedText (d : Dir) (a : Ask) (neg : Bool) (P : Nat) : List Nat :=
  justifyF d a (signF d neg)
    (numeral 10 false (P / 10 ^ decimals a) ++ point d (decimals a) ++ places 10 false (decimals a) P)

/-- The text for infinities and NaNs: padded with spaces only. -/
def nameText (d : Dir) (a : Ask) (neg : Bool) (name : List Nat) : List Nat := padText a (signF d neg ++ name)

/-- The text of `a` for `(lead + H / 16^n) * 2^e`. -/
def hexText (d : Dir) (a : Ask) (upper neg : Bool) (lead n H : Nat) (e : Int) : List Nat :=
  justifyF d a (signF d neg ++ [48, if upper then 88 else 120])
    (digit upper lead :: (point d n ++ places 16 upper n H ++ [if upper then 80 else 112, if e < 0 then 45 else 43] ++
      numeral 10 false e.natAbs))

/-- `P / 10^p` is `|x|` exactly. -/
def DecExact (x p P : Nat) : Prop := P * 2 ^ b64.unit = size b64 x * 10 ^ p

/-- `P / 10^p` is `|x|` correctly rounded: the nearest such decimal, an even one in case of a tie. -/
def DecNearest (x p P : Nat) : Prop :=
  2 * dist (size b64 x * 10 ^ p) (P * 2 ^ b64.unit) ≤ 2 ^ b64.unit ∧
    (2 * dist (size b64 x * 10 ^ p) (P * 2 ^ b64.unit) = 2 ^ b64.unit → P % 2 = 0)

/-- `P / 10^p` differs from `|x|` by at most `num / den` units in its last place. -/
def DecWithin (num den x p P : Nat) : Prop :=
  den * dist (size b64 x * 10 ^ p) (P * 2 ^ b64.unit) ≤ num * 2 ^ b64.unit

/-- `(lead + H / 16^n) * 2^e` is `|x|` exactly. -/
def HexExact (F : Fmt) (x lead n H : Nat) (e : Int) : Prop :=
  0 ≤ e + F.unit ∧ (lead * 16 ^ n + H) * 2 ^ (e + F.unit).toNat = size F x * 16 ^ n

/-- `(lead + H / 16^n) * 2^e` is `|x|` correctly rounded to `n` hexadecimal places. -/
def HexNearest (F : Fmt) (x lead n H : Nat) (e : Int) : Prop :=
  0 ≤ e + F.unit ∧
  2 * dist (size F x * 16 ^ n) ((lead * 16 ^ n + H) * 2 ^ (e + F.unit).toNat) ≤ 2 ^ (e + F.unit).toNat ∧
    (2 * dist (size F x * 16 ^ n) ((lead * 16 ^ n + H) * 2 ^ (e + F.unit).toNat) = 2 ^ (e + F.unit).toNat →
      (lead * 16 ^ n + H) % 2 = 0)

end Verif.Printf.Spec
