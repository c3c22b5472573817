import Verif.Decimal.Spec

/-! # Specification of hexadecimal floating-point strings (C11 7.22.1.3) -/

namespace Verif.Decimal.Spec
open Verif.Strtol Verif.Float

/-- Hexadecimal digits. -/
def HexDigits (s : List Int) : Prop := ∀ c ∈ s, IsDigit 16 c

/-- An optional binary exponent part: `p` or `P`, an optional sign and at least one decimal digit. -/
inductive Binary : List Int → Int → Prop
  | none : Binary [] 0
  | some (c : Int) (sign ds : List Int) (neg : Bool) (hc : c = 112 ∨ c = 80) (hs : Sign sign neg) (hne : ds ≠ []) (hd : Digits ds) :
      Binary (c :: (sign ++ ds)) (if neg then -(value 10 ds : Int) else value 10 ds)

/-- `HexSubject w neg n t`: `w` has the expected hexadecimal form, an optional sign, `0x` or `0X`, digits with an optional
point, at least one digit, an optional binary exponent part; it denotes `± n * 2^t`. -/
inductive HexSubject : List Int → Bool → Nat → Int → Prop
  | mk (sign pre ip point fp ex : List Int) (neg : Bool) (e : Int) (hs : Sign sign neg) (hx : pre = [48, 120] ∨ pre = [48, 88])
      (hp : point = [] ∧ fp = [] ∨ point = [46]) (hi : HexDigits ip) (hf : HexDigits fp) (hne : ip ++ fp ≠ []) (he : Binary ex e) :
      HexSubject (sign ++ (pre ++ (ip ++ (point ++ (fp ++ ex))))) neg (value 16 (ip ++ fp)) (e - 4 * fp.length)

/-- `w` is the longest prefix of `s` of the expected form. -/
def HexLongest (s w : List Int) (neg : Bool) (n : Nat) (t : Int) : Prop :=
  w <+: s ∧ HexSubject w neg n t ∧ ∀ w' neg' n' t', w' <+: s → HexSubject w' neg' n' t' → w'.length ≤ w.length

/-- No prefix of `s` has the expected form. -/
def NoHex (s : List Int) : Prop := ∀ w neg n t, w <+: s → ¬ HexSubject w neg n t

/-- The prefix of a hexadecimal number followed by an exponent part, without any digits. -/
def StrayBinary (s : List Int) : Prop :=
  ∃ sign neg pre point ex e, Sign sign neg ∧ (pre = [48, 120] ∨ pre = [48, 88]) ∧ (point = [] ∨ point = [46]) ∧ ex ≠ [] ∧ Binary ex e ∧
    sign ++ (pre ++ (point ++ ex)) <+: s

/-- `m` is the pattern nearest to `n * 2^t`. -/
def RoundsBin (F : Fmt) (n : Nat) (t : Int) (m : Nat) : Prop :=
  Nearest F (n * 2 ^ t.toNat * 2 ^ F.unit) (2 ^ (-t).toNat) m

/-- `n * 2^t` is at least the smallest normal number, `2^f` units. -/
def AtLeastNormal (F : Fmt) (n : Nat) (t : Int) : Prop := 2 ^ F.f * 2 ^ (-t).toNat ≤ n * 2 ^ t.toNat * 2 ^ F.unit

end Verif.Decimal.Spec
