import Verif.Strtol.Model
import Verif.Decimal.Model

/-!
# Model of the wide number parsers (src/wchar/parse.h, wcstol.c, wcstoll.c, wcstoul.c, wcstoull.c,
wcstod.c, wcstof.c)

A wide string is the list of its characters (values of `wchar_t`) before the terminator. The buffer is the list
of the characters before the null character stored last; the conversions to `char` keep the value, as only
ASCII characters are copied.
-/

namespace Verif.Wide

/-- The white space of parse.h:21-22. -/
def blank (c : Int) : Bool := c = 32 ∨ c = 9 ∨ c = 10 ∨ c = 11 ∨ c = 12 ∨ c = 13

/-- The characters of parse.h:32-37. -/
def token (c : Int) : Bool :=
  (48 ≤ c ∧ c ≤ 57) ∨ (97 ≤ c ∧ c ≤ 122) ∨ (65 ≤ c ∧ c ≤ 90) ∨ c = 43 ∨ c = 45 ∨ c = 46 ∨ c = 40 ∨ c = 41 ∨ c = 95

/-- parse.h:21-23: the count `k`. -/
def blanks : List Int → Nat
  | [] => 0
  | c :: s => if blank c then blanks s + 1 else 0

/-- parse.h:26-27; `room` is `cap - 1 - n`. -/
def copyBlanks : Nat → List Int → Nat → List Int
  | k + 1, c :: s, room + 1 => c :: copyBlanks k s room
  | _, _, _ => []

/-- parse.h:29-44; `room` is `cap - 1 - n`. -/
def copyToken : List Int → Nat → List Int
  | c :: s, room + 1 => if token c then c :: copyToken s room else []
  | _, _ => []

/-- `wparse_copy_`, parse.h:16-48. -/
def wparseCopy (s : List Int) (cap : Nat) : List Int :=
  let k := blanks s
  let b := copyBlanks k s (cap - 1)
  b ++ copyToken (s.drop k) (cap - 1 - b.length)

/-- `wcstol`, wcstol.c:5-18; the offset of the end in the buffer is the offset in the string (parse.h:53-58). -/
def wcstol (s : List Int) (base : Nat) : Option Strtol.Result := Strtol.strtol (wparseCopy s 128) base
/-- `wcstoll`, wcstoll.c:5-17. -/
def wcstoll (s : List Int) (base : Nat) : Option Strtol.Result := Strtol.strtoll (wparseCopy s 128) base
/-- `wcstoul`, wcstoul.c:5-17. -/
def wcstoul (s : List Int) (base : Nat) : Option Strtol.Result := Strtol.strtoul (wparseCopy s 128) base
/-- `wcstoull`, wcstoull.c:5-17. -/
def wcstoull (s : List Int) (base : Nat) : Option Strtol.Result := Strtol.strtoull (wparseCopy s 128) base
/-- `wcstod`, wcstod.c:5-17. -/
def wcstod (s : List Int) : Option Decimal.Result := Decimal.strtod (wparseCopy s 256)
/-- `wcstof`, wcstof.c:5-17. -/
def wcstof (s : List Int) : Option Decimal.Result := Decimal.strtof (wparseCopy s 256)

end Verif.Wide
