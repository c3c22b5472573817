import Verif.Base

/-!
# Model of `src/ctype` and `src/wctype`

A C `int` is an `Int`; the result is `none` when the C expression overflows a signed
subtraction (undefined behaviour), otherwise the returned `int`.
-/

namespace Verif.Ctype

/-- The pattern `c - k < nu` of `src/ctype`: `c - k` is a signed subtraction (checked),
its result is converted to `unsigned` for the comparison with `nu`. -/
def subLt (c k : Int) (n : Nat) : Option Int :=
  (chk32 (c - k)).map fun d => if u32 d < n then 1 else 0

/-- src/ctype/isdigit.c:1-4 -/
def isdigit (c : Int) : Option Int := subLt c 48 10

/-- src/ctype/islower.c:1-4 -/
def islower (c : Int) : Option Int := subLt c 97 26

/-- src/ctype/isupper.c:1-4 -/
def isupper (c : Int) : Option Int := subLt c 65 26

/-- src/ctype/isgraph.c:1-4 -/
def isgraph (c : Int) : Option Int := subLt c 33 94

/-- src/ctype/isprint.c:1-4 -/
def isprint (c : Int) : Option Int := subLt c 32 95

/-- src/ctype/isalpha.c:3-6 -/
def isalpha (c : Int) : Option Int := islower (or32 c 32)

/-- src/ctype/isalnum.c:3-6 (`||` short-circuits) -/
def isalnum (c : Int) : Option Int := do
  let d ← isdigit c
  if d ≠ 0 then return 1
  let a ← isalpha c
  return if a ≠ 0 then 1 else 0

/-- src/ctype/isblank.c:1-4 -/
def isblank (c : Int) : Option Int := some (if c = 32 ∨ c = 9 then 1 else 0)

/-- src/ctype/iscntrl.c:1-4 -/
def iscntrl (c : Int) : Option Int := some (if u32 c < 32 ∨ c = 127 then 1 else 0)

/-- src/ctype/ispunct.c:3-6 -/
def ispunct (c : Int) : Option Int := do
  let g ← isgraph c
  if g = 0 then return 0
  let a ← isalnum c
  return if a = 0 then 1 else 0

/-- src/ctype/isspace.c:1-4 -/
def isspace (c : Int) : Option Int :=
  if c = 32 then some 1 else subLt c 9 5

/-- src/ctype/isxdigit.c:3-6 -/
def isxdigit (c : Int) : Option Int := do
  let d ← isdigit c
  if d ≠ 0 then return 1
  subLt (or32 c 32) 97 6

/-- src/ctype/tolower.c:3-6.  `isupper(c) << 5` is 0 or 32. -/
def tolower (c : Int) : Option Int := do
  let u ← isupper c
  return or32 c (u * 32)

/-- src/ctype/toupper.c:3-6 -/
def toupper (c : Int) : Option Int := do
  let l ← islower c
  return and32 c (not32 (l * 32))

/-! `src/wctype`: `wint_t` is `int` on wasm32 (`__WINT_TYPE__`), so an argument is an `Int`. -/

/-- src/wctype/isw{alnum,…,xdigit}.c:4, all of the shape `c < 128 ? isX((int)c) : 0` -/
def isw (f : Int → Option Int) (c : Int) : Option Int := if c < 128 then f c else some 0

/-- src/wctype/iswctype.c:3-20 -/
def iswctype (c : Int) (type : Int) : Option Int :=
  match type with
  | 1 => isw isalnum c
  | 2 => isw isalpha c
  | 3 => isw isblank c
  | 4 => isw iscntrl c
  | 5 => isw isdigit c
  | 6 => isw isgraph c
  | 7 => isw islower c
  | 8 => isw isprint c
  | 9 => isw ispunct c
  | 10 => isw isspace c
  | 11 => isw isupper c
  | 12 => isw isxdigit c
  | _ => some 0

/-- src/wctype/wctype.c:7-22; the C string argument is given by its bytes as a `String`. -/
def wctype (name : String) : Int :=
  if name = "alnum" then 1
  else if name = "alpha" then 2
  else if name = "blank" then 3
  else if name = "cntrl" then 4
  else if name = "digit" then 5
  else if name = "graph" then 6
  else if name = "lower" then 7
  else if name = "print" then 8
  else if name = "punct" then 9
  else if name = "space" then 10
  else if name = "upper" then 11
  else if name = "xdigit" then 12
  else 0

/-- src/wctype/towlower.c:4 -/
def towlower (c : Int) : Option Int := if c < 128 then tolower c else some c

/-- src/wctype/towupper.c:4 -/
def towupper (c : Int) : Option Int := if c < 128 then toupper c else some c

/-- src/wctype/towctrans.c:3-10 -/
def towctrans (c : Int) (trans : Int) : Option Int :=
  match trans with
  | 1 => towlower c
  | 2 => towupper c
  | _ => some c

/-- src/wctype/wctrans.c:4-9 -/
def wctrans (name : String) : Int :=
  if name = "tolower" then 1
  else if name = "toupper" then 2
  else 0

end Verif.Ctype
