/-!
# Specification of string to integer conversion (C11 7.22.1.4)

Characters are integers in the range of `char` (ASCII codes where it matters).
-/

namespace Verif.Strtol

/-- White space of the C locale. -/
def White (c : Int) : Prop := c = 32 ∨ (9 ≤ c ∧ c ≤ 13)

instance (c : Int) : Decidable (White c) := inferInstanceAs (Decidable (_ ∨ _))

/-- Digit values: 0-9, then a-z or A-Z for 10-35. -/
def digitVal (c : Int) : Option Nat :=
  if 48 ≤ c ∧ c ≤ 57 then some (c - 48).toNat
  else if 97 ≤ c ∧ c ≤ 122 then some (c - 87).toNat
  else if 65 ≤ c ∧ c ≤ 90 then some (c - 55).toNat
  else none

/-- `c` is a digit in the given radix. -/
def IsDigit (radix : Nat) (c : Int) : Prop := ∃ d, digitVal c = some d ∧ d < radix

/-- Value of a string of digits. -/
def value (radix : Nat) (digits : List Int) : Nat :=
  digits.foldl (fun v c => v * radix + (digitVal c).getD 0) 0

/-- `Subject base w neg radix digits`: `w` has the form expected for `base`: an optional sign, a
prefix `0x` or `0X` if the base is 16 or 0, and at least one digit. With base 0 the digits are
hexadecimal after the prefix, octal if they begin with `0`, decimal otherwise. -/
inductive Subject (base : Nat) : List Int → Bool → Nat → List Int → Prop
  | mk (sign pre digits : List Int) (neg : Bool) (radix : Nat)
      (hsign : (sign = [] ∧ neg = false) ∨ (sign = [43] ∧ neg = false) ∨ (sign = [45] ∧ neg = true))
      (hpre : pre = [] ∨ ((base = 16 ∨ base = 0) ∧ (pre = [48, 120] ∨ pre = [48, 88])))
      (hradix : radix = if base ≠ 0 then base else if pre ≠ [] then 16 else if digits.head? = some 48 then 8 else 10)
      (hne : digits ≠ []) (hd : ∀ c ∈ digits, IsDigit radix c) :
      Subject base (sign ++ pre ++ digits) neg radix digits

/-- `w` is the longest prefix of `s` of the expected form. -/
def Longest (base : Nat) (s w : List Int) (neg : Bool) (radix : Nat) (digits : List Int) : Prop :=
  w <+: s ∧ Subject base w neg radix digits ∧
    ∀ w' neg' radix' digits', w' <+: s → Subject base w' neg' radix' digits' → w'.length ≤ w.length

/-- A C string: no NUL among the characters, which are `char`s. -/
def IsString (s : List Int) : Prop := ∀ c ∈ s, -128 ≤ c ∧ c ≤ 127 ∧ c ≠ 0

/-- Initial white space. -/
def Blank (s : List Int) : Prop := ∀ c ∈ s, White c

/-- The number denoted: the value of the digits, negated after a minus sign. -/
def denoted (neg : Bool) (radix : Nat) (digits : List Int) : Int :=
  if neg then -(value radix digits : Int) else value radix digits

end Verif.Strtol
