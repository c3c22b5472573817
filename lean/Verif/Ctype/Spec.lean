/-!
# Specification of character classes

The members of each class of the C locale (ASCII), listed as text.
-/

namespace Verif.Ctype.Spec

def upper : String := "ABCDEFGHIJKLMNOPQRSTUVWXYZ"
def lower : String := "abcdefghijklmnopqrstuvwxyz"
def digit : String := "0123456789"
def xdigit : String := "0123456789ABCDEFabcdef"
def punct : String := "!\"#$%&'()*+,-./:;<=>?@[\\]^_`{|}~"
def blank : String := " \t"

/-- `c` is the code of one of the characters of `s`. -/
def In (s : String) (c : Int) : Prop := ∃ ch ∈ s.toList, c = (ch.toNat : Int)

def alpha (c : Int) : Prop := In upper c ∨ In lower c
def alnum (c : Int) : Prop := alpha c ∨ In digit c
def graph (c : Int) : Prop := alnum c ∨ In punct c
/-- printing = graphic characters and the space -/
def print (c : Int) : Prop := graph c ∨ c = 32
/-- space, form feed, newline, carriage return, horizontal and vertical tab (C11 7.4.1.10) -/
def space (c : Int) : Prop := c = 32 ∨ c = 12 ∨ c = 10 ∨ c = 13 ∨ c = 9 ∨ c = 11
/-- an ASCII code that is not a printing character -/
def cntrl (c : Int) : Prop := 0 ≤ c ∧ c < 128 ∧ ¬ print c

/-- The letter at the same place of the other alphabet. -/
def Pair (l u : Int) : Prop :=
  ∃ p ∈ lower.toList.zip upper.toList, l = (p.1.toNat : Int) ∧ u = (p.2.toNat : Int)

/-- Arguments on which no signed overflow happens in any of the functions: all ints except the
97 smallest.  Contains EOF (-1) and 0..255, the whole domain of C11 7.4p1. -/
def Defined (c : Int) : Prop := -2147483551 ≤ c ∧ c ≤ 2147483647

/-- `r` is a defined result, nonzero exactly when `P` holds. -/
def Decides (r : Option Int) (P : Prop) : Prop := ∃ v, r = some v ∧ (v ≠ 0 ↔ P)

/-- The twelve class names of C11 7.30.2.2.1 and what they mean. -/
def classes : List (String × (Int → Prop)) :=
  [("alnum", alnum), ("alpha", alpha), ("blank", In blank), ("cntrl", cntrl), ("digit", In digit),
   ("graph", graph), ("lower", In lower), ("print", print), ("punct", In punct), ("space", space),
   ("upper", In upper), ("xdigit", In xdigit)]

end Verif.Ctype.Spec
