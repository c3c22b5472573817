import Verif.Base
import Verif.Str.Model

/-!
# Model of the wide string functions of `src/wchar`

Memory is a function from positions to values of `wchar_t`, which is a signed 32-bit integer; a position counts
wide characters, that is 4 bytes. `L` is the number of wide characters in linear memory, at most 2^30; an access
at or beyond `L` is `none`. The functions that return their first argument are modelled by the memory they
leave. A null pointer is `none` inside the outer `Option`. Counts (`size_t`) are natural numbers.
-/

namespace Verif.Wide

/-- Wide characters by position. -/
abbrev Mem := Nat → Int

/-- Store one wide character. -/
def put (m : Mem) (a : Nat) (w : Int) : Mem := fun x => if x = a then w else m x

/-- wcslen.c:7-8: the position of the terminator. -/
def wcslenFrom (L : Nat) (m : Mem) (a : Nat) : Option Nat :=
  if h : a < L then if m a ≠ 0 then wcslenFrom L m (a + 1) else some a else none
termination_by L - a

/-- `wcslen`, wcslen.c:3-11. -/
def wcslen (L : Nat) (m : Mem) (s : Nat) : Option Nat := (wcslenFrom L m s).map (· - s)

/-- `wcschr`, wcschr.c:3-10. -/
def wcschr (L : Nat) (m : Mem) (s : Nat) (c : Int) : Option (Option Nat) :=
  if h : s < L then
    if m s ≠ 0 then if m s = c then some (some s) else wcschr L m (s + 1) c
    else some (if c ≠ 0 then none else some s)
  else none
termination_by L - s

/-- `wcsrchr`, wcsrchr.c:3-15; `found` is the last candidate. -/
def wcsrchrFrom (L : Nat) (m : Mem) (s : Nat) (c : Int) (found : Option Nat) : Option (Option Nat) :=
  if h : s < L then
    if m s ≠ 0 then wcsrchrFrom L m (s + 1) c (if m s = c then some s else found)
    else some (if c = 0 then some s else found)
  else none
termination_by L - s

/-- `wcsrchr`, wcsrchr.c:3-15. -/
def wcsrchr (L : Nat) (m : Mem) (s : Nat) (c : Int) : Option (Option Nat) := wcsrchrFrom L m s c none

/-- `*lhs < *rhs ? -1 : 1`. -/
def sign (a b : Int) : Int := if a < b then -1 else 1

/-- `wcscmp`, wcscmp.c:3-14. -/
def wcscmp (L : Nat) (m : Mem) (x y : Nat) : Option Int :=
  if h : x < L ∧ y < L then
    if m x = m y ∧ m x ≠ 0 then wcscmp L m (x + 1) (y + 1)
    else if m x = m y then some 0
    else some (sign (m x) (m y))
  else none
termination_by L - x

/-- `wcscoll`, wcscoll.c:3-7. -/
def wcscoll (L : Nat) (m : Mem) (x y : Nat) : Option Int := wcscmp L m x y

/-- `wcsncmp`, wcsncmp.c:3-17. -/
def wcsncmp (L : Nat) (m : Mem) : Nat → Nat → Nat → Option Int
  | _, _, 0 => some 0
  | x, y, k + 1 =>
    if x < L ∧ y < L then
      if m x ≠ m y then some (sign (m x) (m y)) else if m x = 0 then some 0 else wcsncmp L m (x + 1) (y + 1) k
    else none

/-- `wmemcmp`, wmemcmp.c:3-14. -/
def wmemcmp (L : Nat) (m : Mem) : Nat → Nat → Nat → Option Int
  | _, _, 0 => some 0
  | x, y, k + 1 =>
    if x < L ∧ y < L then
      if m x ≠ m y then some (sign (m x) (m y)) else wmemcmp L m (x + 1) (y + 1) k
    else none

/-- `wmemchr`, wmemchr.c:3-10. -/
def wmemchr (L : Nat) (m : Mem) (s : Nat) (c : Int) : Nat → Option (Option Nat)
  | 0 => some none
  | k + 1 => if s < L then if m s = c then some (some s) else wmemchr L m (s + 1) c k else none

/-- The loops of wcsspn.c:7-8, wcscspn.c:7-8 and wcspbrk.c:5-7: they go on while the character is not null
and `wcschr(set, *string)` is not null (`want` true) or null (`want` false). The result is the position where
they end. -/
def spanFrom (L : Nat) (m : Mem) (set : Nat) (want : Bool) (a : Nat) : Option Nat :=
  if h : a < L then
    if m a ≠ 0 then
      match wcschr L m set (m a) with
      | none => none
      | some r => if r.isSome = want then spanFrom L m set want (a + 1) else some a
    else some a
  else none
termination_by L - a

/-- `wcsspn`, wcsspn.c:3-11. -/
def wcsspn (L : Nat) (m : Mem) (s accept : Nat) : Option Nat := (spanFrom L m accept true s).map (· - s)

/-- `wcscspn`, wcscspn.c:3-11. -/
def wcscspn (L : Nat) (m : Mem) (s reject : Nat) : Option Nat := (spanFrom L m reject false s).map (· - s)

/-- `wcspbrk`, wcspbrk.c:3-10. -/
def wcspbrk (L : Nat) (m : Mem) (s set : Nat) : Option (Option Nat) :=
  (spanFrom L m set false s).map fun a => if m a ≠ 0 then some a else none

/-- wcsstr.c:12-17: whether the needle ended. -/
def matchFrom (L : Nat) (m : Mem) (h n : Nat) : Option Bool :=
  if hL : h < L ∧ n < L then
    if m h ≠ 0 ∧ m n ≠ 0 ∧ m h = m n then matchFrom L m (h + 1) (n + 1) else some (decide (m n = 0))
  else none
termination_by L - h

/-- wcsstr.c:8-21. -/
def wcsstrFrom (L : Nat) (m : Mem) (needle hay : Nat) : Option (Option Nat) :=
  if h : hay < L then
    if m hay ≠ 0 then
      match matchFrom L m hay needle with
      | none => none
      | some true => some (some hay)
      | some false => wcsstrFrom L m needle (hay + 1)
    else some none
  else none
termination_by L - hay

/-- `wcsstr`, wcsstr.c:3-22. -/
def wcsstr (L : Nat) (m : Mem) (hay needle : Nat) : Option (Option Nat) :=
  if needle < L then if m needle = 0 then some (some hay) else wcsstrFrom L m needle hay else none

/-- `wcscpy`, wcscpy.c:3-10. -/
def wcscpy (L : Nat) (m : Mem) (d s : Nat) : Option Mem :=
  if h : s < L ∧ d < L then
    if m s ≠ 0 then wcscpy L (put m d (m s)) (d + 1) (s + 1) else some (put m d (m s))
  else none
termination_by L - s

/-- `wcscat`, wcscat.c:3-8. -/
def wcscat (L : Nat) (m : Mem) (d s : Nat) : Option Mem := do
  let n ← wcslen L m d
  wcscpy L m (d + n) s

/-- The loop of wcsncat.c:7-8 and wcsncpy.c:7-8: the memory, the place after the last character stored and what is left
of `length`. -/
def copyLoop (L : Nat) : Nat → Nat → Nat → Mem → Option (Mem × Nat × Nat)
  | 0, d, _, m => some (m, d, 0)
  | k + 1, d, s, m =>
    if s < L then
      if m s ≠ 0 then if d < L then copyLoop L k (d + 1) (s + 1) (put m d (m s)) else none
      else some (m, d, k + 1)
    else none

/-- `while (length--) *output++ = c;`, wcsncpy.c:10-11 and wmemset.c:7-8. -/
def fill (L : Nat) (c : Int) : Nat → Nat → Mem → Option Mem
  | 0, _, m => some m
  | k + 1, d, m => if d < L then fill L c k (d + 1) (put m d c) else none

/-- `wcsncat`, wcsncat.c:3-13. -/
def wcsncat (L : Nat) (m : Mem) (d s n : Nat) : Option Mem := do
  let k ← wcslen L m d
  let (m, d, _) ← copyLoop L n (d + k) s m
  if d < L then some (put m d 0) else none

/-- `wcsncpy`, wcsncpy.c:3-14. -/
def wcsncpy (L : Nat) (m : Mem) (d s n : Nat) : Option Mem := do
  let (m, d, k) ← copyLoop L n d s m
  fill L 0 k d m

/-- `wmemset`, wmemset.c:3-11. -/
def wmemset (L : Nat) (m : Mem) (d : Nat) (c : Int) (n : Nat) : Option Mem := fill L c n d m

/-- wcsxfrm.c:11-12; `k` characters remain. -/
def xfrmLoop (L d s : Nat) : Nat → Nat → Mem → Option Mem
  | 0, _, m => some m
  | k + 1, i, m => if s + i < L ∧ d + i < L then xfrmLoop L d s k (i + 1) (put m (d + i) (m (s + i))) else none

/-- `wcsxfrm`, wcsxfrm.c:3-18: the memory and the value returned. -/
def wcsxfrm (L : Nat) (m : Mem) (d s n : Nat) : Option (Mem × Nat) := do
  let len ← wcslen L m s
  if n ≠ 0 then
    let c := if len < n then len else n - 1
    let m ← xfrmLoop L d s c 0 m
    if d + c < L then some (put m (d + c) 0, len) else none
  else some (m, len)

/-- `wmemcpy`, wmemcpy.c:4-8, in terms of bytes and `size_t`. -/
def wmemcpy (L : Nat) (m : Str.Mem) (d s n : Nat) : Option Str.Mem := Str.memcpy L m d s (n * 4 % 2 ^ 32)

/-- `wmemmove`, wmemmove.c:4-8. -/
def wmemmove (L : Nat) (m : Str.Mem) (d s n : Nat) : Option Str.Mem := Str.memmove L m d s (n * 4 % 2 ^ 32)

/-- `wcstok`, wcstok.c:3-19: the memory, the new state and the value returned. -/
def wcstok (L : Nat) (m : Mem) (string : Option Nat) (seps : Nat) (state : Option Nat) :
    Option (Mem × Option Nat × Option Nat) :=
  match (match string with | some s => some s | none => state) with
  | none => some (m, state, none)
  | some s => do
    let k ← wcsspn L m s seps
    let s := s + k
    if s < L then
      if m s = 0 then some (m, none, none)
      else
        match ← wcspbrk L m s seps with
        | none => some (m, none, some s)
        | some p => if p < L then some (put m p 0, some (p + 1), some s) else none
    else none

/-- A caller that calls `wcstok` `n` times, the first time with `string`, then with a null pointer: the
memory and the values returned. -/
def wcstokCalls (L : Nat) (m : Mem) (string : Option Nat) (seps : Nat) (state : Option Nat) :
    Nat → Option (Mem × List (Option Nat))
  | 0 => some (m, [])
  | n + 1 => do
    let (m, state, r) ← wcstok L m string seps state
    let (m, rs) ← wcstokCalls L m none seps state n
    return (m, r :: rs)

end Verif.Wide
