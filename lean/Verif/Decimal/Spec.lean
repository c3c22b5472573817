import Verif.Strtol.Spec
import Verif.Float.Spec

/-!
# Specification of string to floating-point conversion (C11 7.22.1.3)

Characters, white space, digits and the values of digit strings are those of `Verif.Strtol`.
-/

namespace Verif.Decimal.Spec
open Verif.Strtol Verif.Float

/-- An optional sign. -/
def Sign (s : List Int) (neg : Bool) : Prop :=
  (s = [] ∧ neg = false) ∨ (s = [43] ∧ neg = false) ∨ (s = [45] ∧ neg = true)

/-- Decimal digits. -/
def Digits (s : List Int) : Prop := ∀ c ∈ s, IsDigit 10 c

/-- An optional exponent part: `e` or `E`, an optional sign and at least one digit. -/
inductive Exponent : List Int → Int → Prop
  | none : Exponent [] 0
  | some (c : Int) (sign ds : List Int) (neg : Bool) (hc : c = 101 ∨ c = 69) (hs : Sign sign neg) (hne : ds ≠ []) (hd : Digits ds) :
      Exponent (c :: (sign ++ ds)) (if neg then -(value 10 ds : Int) else value 10 ds)

/-- `Subject w neg n t`: `w` has the expected decimal form, an optional sign, digits with an optional point, at least one
digit, an optional exponent part; it denotes `± n * 10^t`. -/
inductive Subject : List Int → Bool → Nat → Int → Prop
  | mk (sign ip point fp ex : List Int) (neg : Bool) (e : Int) (hs : Sign sign neg)
      (hp : point = [] ∧ fp = [] ∨ point = [46]) (hi : Digits ip) (hf : Digits fp) (hne : ip ++ fp ≠ []) (he : Exponent ex e) :
      Subject (sign ++ (ip ++ (point ++ (fp ++ ex)))) neg (value 10 (ip ++ fp)) (e - fp.length)

/-- `w` is the longest prefix of `s` of the expected form. -/
def Longest (s w : List Int) (neg : Bool) (n : Nat) (t : Int) : Prop :=
  w <+: s ∧ Subject w neg n t ∧ ∀ w' neg' n' t', w' <+: s → Subject w' neg' n' t' → w'.length ≤ w.length

/-- The string has, after an optional sign, the prefix of a hexadecimal form. -/
def Hex (s : List Int) : Prop := ∃ sign neg, Sign sign neg ∧ (sign ++ [48, 120] <+: s ∨ sign ++ [48, 88] <+: s)

/-- No prefix has the decimal form. -/
def NoNumber (s : List Int) : Prop := ∀ w neg n t, w <+: s → ¬ Subject w neg n t

/-- Letters in lower case. -/
def lower (c : Int) : Int := if 65 ≤ c ∧ c ≤ 90 then c + 32 else c

/-- `INF` or `INFINITY`, ignoring case, after an optional sign. -/
def Infinite (w : List Int) (neg : Bool) : Prop :=
  ∃ sign v, Sign sign neg ∧ w = sign ++ v ∧ (v.map lower = [105, 110, 102] ∨ v.map lower = [105, 110, 102, 105, 110, 105, 116, 121])

/-- What may stand in the parentheses after `NAN`: letters, digits and underscores. -/
def TagChar (c : Int) : Prop := (48 ≤ c ∧ c ≤ 57) ∨ (65 ≤ c ∧ c ≤ 90) ∨ (97 ≤ c ∧ c ≤ 122) ∨ c = 95

/-- `NAN` or `NAN(tag)`, ignoring case, after an optional sign. -/
def NotNumber (w : List Int) (neg : Bool) (tag : Option (List Int)) : Prop :=
  ∃ sign v tail, Sign sign neg ∧ w = sign ++ (v ++ tail) ∧ v.map lower = [110, 97, 110] ∧
    match tag with
    | none => tail = []
    | some cs => tail = 40 :: (cs ++ [41]) ∧ ∀ c ∈ cs, TagChar c

/-- Tags that are numerals: decimal digits not beginning with 0, 0 and octal digits, or `0x` and hexadecimal digits. -/
def Numeral (tag : List Int) : Prop :=
  ((∀ c ∈ tag, IsDigit 10 c) ∧ tag.head? ≠ some 48) ∨ (∃ ds, tag = 48 :: ds ∧ ∀ c ∈ ds, IsDigit 8 c) ∨
  ∃ x ds, tag = 48 :: x :: ds ∧ (x = 120 ∨ x = 88) ∧ ∀ c ∈ ds, IsDigit 16 c

/-- `INF` or `NAN` begin here. -/
def Named (s : List Int) : Prop := (∃ w neg, w <+: s ∧ Infinite w neg) ∨ ∃ w neg tag, w <+: s ∧ NotNumber w neg tag

/-- An exponent part that belongs to no number: only a sign and a point come before it. -/
def StrayExponent (s : List Int) : Prop :=
  ∃ sign neg point ex e, Sign sign neg ∧ (point = [] ∨ point = [46]) ∧ ex ≠ [] ∧ Exponent ex e ∧ sign ++ (point ++ ex) <+: s

/-- `m` is the pattern nearest to `n * 10^t`. -/
def Rounds (F : Fmt) (n : Nat) (t : Int) (m : Nat) : Prop :=
  Nearest F (n * 10 ^ t.toNat * 2 ^ F.unit) (10 ^ (-t).toNat) m

/-- `n * 10^t` is a little above its first digits `n / 10^l`, and no midpoint of two doubles lies between. -/
def Clear (n l : Nat) (t : Int) : Prop :=
  ∀ k, k + 1 ≤ b64.inf →
    ¬ (2 * (n / 10 ^ l * 10 ^ (t + l).toNat * 2 ^ 1074) < 10 ^ (-(t + l)).toNat * (b64.mag k + b64.mag (k + 1)) ∧
      10 ^ (-t).toNat * (b64.mag k + b64.mag (k + 1)) ≤ 2 * (n * 10 ^ t.toNat * 2 ^ 1074))

/-- `l + 38` digits, at most 4000, and an exponent that is small relative to the first 38.  If those end in an odd digit
and others follow, they are not just below a midpoint. -/
def Long (n l : Nat) (t : Int) : Prop :=
  l ≤ 3962 ∧ 10 ^ (l + 37) ≤ n ∧ n < 10 ^ (l + 38) ∧ -54 ≤ t + l ∧ t + l ≤ 54 ∧ (n % 10 ^ l = 0 ∨ n / 10 ^ l % 2 = 0 ∨ Clear n l t)

end Verif.Decimal.Spec
