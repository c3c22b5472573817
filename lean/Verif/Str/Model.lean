import Verif.Base

/-!
# Model of `src/string`

Memory is a function from addresses to bytes (naturals below 256); `L` is the size of linear memory in
bytes, at most 2^32. An access at or beyond `L` is `none`. Addresses are not reduced modulo 2^32: a
pointer that would overflow is beyond `L`. The functions that return their first argument are modelled
by the memory they leave. A null pointer is `none` inside the outer `Option`.

Accesses of 2, 4 and 8 bytes are taken to be allowed at any address (C leaves misaligned ones undefined,
WebAssembly does not), and reading bytes of memory outside the object is allowed below `L`.
-/

namespace Verif.Str

/-- Bytes by address. -/
abbrev Mem := Nat → Nat

/-- A conversion to `unsigned char`. -/
def uchar (c : Int) : Nat := (c % 256).toNat

/-- The little-endian 64-bit word at `a`. -/
def word (m : Mem) (a : Nat) : Nat :=
  m a + 256 * (m (a + 1) + 256 * (m (a + 2) + 256 * (m (a + 3) + 256 * (m (a + 4) + 256 * (m (a + 5) +
    256 * (m (a + 6) + 256 * m (a + 7)))))))

/-- Store one byte. -/
def put (m : Mem) (a b : Nat) : Mem := fun x => if x = a then b else m x

/-- Store the `w` bytes read at `s` to `d`. -/
def block (m : Mem) (d s w : Nat) : Mem := fun x => if d ≤ x ∧ x < d + w then m (s + (x - d)) else m x

/-- `COPY(T)`, copy.h:5-11, with `sizeof(T) = w`; `k` iterations remain. -/
def copyUp (L w d s : Nat) : Nat → Nat → Mem → Option Mem
  | 0, _, m => some m
  | k + 1, i, m =>
    if s + w * i + w ≤ L ∧ d + w * i + w ≤ L then copyUp L w d s k (i + 1) (block m (d + w * i) (s + w * i) w)
    else none

/-- `REVERSE_COPY(T)`, memmove.c:6-12; the argument is `count`. -/
def copyDown (L w d s : Nat) : Nat → Mem → Option Mem
  | 0, m => some m
  | i + 1, m =>
    if s + w * i + w ≤ L ∧ d + w * i + w ≤ L then copyDown L w d s i (block m (d + w * i) (s + w * i) w)
    else none

/-- `size & -size`. -/
def lowBit (size : Nat) : Nat := size &&& (4294967296 - size) % 4294967296

/-- `copy_`, copy.h:18-30. -/
def copy (L : Nat) (m : Mem) (d s size : Nat) : Option Mem :=
  match lowBit size with
  | 1 => copyUp L 1 d s size 0 m
  | 2 => copyUp L 2 d s (size / 2) 0 m
  | 4 => copyUp L 4 d s (size / 4) 0 m
  | _ => copyUp L 8 d s (size / 8) 0 m

/-- `reverse_copy_`, memmove.c:19-31. -/
def reverseCopy (L : Nat) (m : Mem) (d s size : Nat) : Option Mem :=
  match lowBit size with
  | 1 => copyDown L 1 d s size m
  | 2 => copyDown L 2 d s (size / 2) m
  | 4 => copyDown L 4 d s (size / 4) m
  | _ => copyDown L 8 d s (size / 8) m

/-- `memcpy`, memcpy.c:5-8. -/
def memcpy (L : Nat) (m : Mem) (d s n : Nat) : Option Mem := copy L m d s n

/-- `memmove`, memmove.c:33-39; the difference is converted to `size_t` for the comparison. -/
def memmove (L : Nat) (m : Mem) (d s n : Nat) : Option Mem :=
  if u32 ((d : Int) - s) < n then reverseCopy L m d s n else copy L m d s n

/-- memset.c:21-22, `while (length--) *output++ = c;`. -/
def fillBytes (L c : Nat) : Nat → Nat → Mem → Option Mem
  | 0, _, m => some m
  | k + 1, out, m => if out < L then fillBytes L c k (out + 1) (put m out c) else none

/-- memset.c:16-22. The 8 bytes of `vector` are all `c`. -/
def fillWords (L c : Nat) (length out : Nat) (m : Mem) : Option Mem :=
  if length ≥ 8 then
    if out + 8 ≤ L then fillWords L c (length - 8) (out + 8) fun x => if out ≤ x ∧ x < out + 8 then c else m x
    else none
  else fillBytes L c length out m
termination_by length

/-- memset.c:11-24. When `length` is 0, `length--` is false but leaves SIZE_MAX. -/
def memsetFrom (L c : Nat) (length out : Nat) (m : Mem) : Option Mem :=
  if out % 8 ≠ 0 then
    match length with
    | 0 => fillWords L c 4294967295 out m
    | k + 1 => if out < L then memsetFrom L c k (out + 1) (put m out c) else none
  else fillWords L c length out m

/-- `memset`, memset.c:5-25. -/
def memset (L : Nat) (m : Mem) (d : Nat) (c : Int) (n : Nat) : Option Mem := memsetFrom L (uchar c) n d m

/-- The constant of memchr.c:15, strlen.c:13, strchr.c:18. -/
def magic : Nat := 0x7EFEFEFEFEFEFEFF

/-- `((word + magic) ^ ~word) & ~magic` is not zero. -/
def probe (w : Nat) : Bool :=
  (((w + magic) % 2 ^ 64) ^^^ (w ^^^ 0xFFFFFFFFFFFFFFFF)) &&& (magic ^^^ 0xFFFFFFFFFFFFFFFF) != 0

/-- `0x0101010101010101u * c`. -/
def spread (c : Nat) : Nat := 0x0101010101010101 * c

/-- The first `k < 8` such that the byte at `a + k` satisfies `p`. -/
def find8 (m : Mem) (a : Nat) (p : Nat → Bool) : Option Nat := (List.range 8).find? fun k => p (m (a + k))

/-- memchr.c:19-24. -/
def memchrHit (m : Mem) (c a : Nat) : Option Nat :=
  if probe (word m a ^^^ spread c) then find8 m a (· == c) else none

/-- strlen.c:16-19. -/
def strlenHit (m : Mem) (a : Nat) : Option Nat := if probe (word m a) then find8 m a (· == 0) else none

/-- strchr.c:22-31. -/
def strchrHit (m : Mem) (c a : Nat) : Option Nat :=
  if probe (word m a ^^^ spread c) || probe (word m a) then find8 m a (fun b => b == c || b == 0) else none

/-- memchr.c:29-33. -/
def memchrTail (L : Nat) (m : Mem) (c : Nat) : Nat → Nat → Option (Option Nat)
  | 0, _ => some none
  | k + 1, a => if a < L then if m a = c then some (some a) else memchrTail L m c k (a + 1) else none

/-- memchr.c:18-33; `hit a` is the outcome of lines 19-24 on the word at `a`. -/
def memchrScan (L : Nat) (m : Mem) (c : Nat) (hit : Nat → Option Nat) (length a : Nat) : Option (Option Nat) :=
  if length ≥ 8 then
    if a + 8 ≤ L then
      match hit a with
      | some k => some (some (a + k))
      | none => memchrScan L m c hit (length - 8) (a + 8)
    else none
  else memchrTail L m c length a
termination_by length

/-- memchr.c:18-33. -/
def memchrWords (L : Nat) (m : Mem) (c : Nat) (length a : Nat) : Option (Option Nat) :=
  memchrScan L m c (memchrHit m c) length a

/-- memchr.c:10-33; `length--` at 0 leaves SIZE_MAX. -/
def memchrFrom (L : Nat) (m : Mem) (c : Nat) (length a : Nat) : Option (Option Nat) :=
  if a % 8 ≠ 0 then
    match length with
    | 0 => memchrWords L m c 4294967295 a
    | k + 1 => if a < L then if m a = c then some (some a) else memchrFrom L m c k (a + 1) else none
  else memchrWords L m c length a

/-- `memchr`, memchr.c:5-34. -/
def memchr (L : Nat) (m : Mem) (s : Nat) (c : Int) (n : Nat) : Option (Option Nat) := memchrFrom L m (uchar c) n s

/-- `memcmp`, memcmp.c:8-16. -/
def memcmp (L : Nat) (m : Mem) : Nat → Nat → Nat → Option Int
  | _, _, 0 => some 0
  | x, y, k + 1 =>
    if x < L ∧ y < L then
      if m x ≠ m y then some ((m x : Int) - m y) else memcmp L m (x + 1) (y + 1) k
    else none

/-- The word loops of strlen.c:15-20 and strchr.c:21-33; `hit a` is the outcome of the body on the word
at `a`. The result is the address where the loop ends. -/
def scanWords (L : Nat) (hit : Nat → Option Nat) (a : Nat) : Option Nat :=
  if h : a + 8 ≤ L then
    match hit a with
    | some k => some (a + k)
    | none => scanWords L hit (a + 8)
  else none
termination_by L - a

/-- strlen.c:15-20: the address of the terminator. -/
def strlenWords (L : Nat) (m : Mem) (a : Nat) : Option Nat := scanWords L (strlenHit m) a

/-- strlen.c:9-20: the address of the terminator. -/
def strlenFrom (L : Nat) (m : Mem) (a : Nat) : Option Nat :=
  if a % 8 ≠ 0 then
    if h : a < L then if m a = 0 then some a else strlenFrom L m (a + 1) else none
  else strlenWords L m a
termination_by L - a

/-- `strlen`, strlen.c:5-21. -/
def strlen (L : Nat) (m : Mem) (s : Nat) : Option Nat := (strlenFrom L m s).map (· - s)

/-- strchr.c:21-33. -/
def strchrWords (L : Nat) (m : Mem) (c a : Nat) : Option (Option Nat) :=
  (scanWords L (strchrHit m c) a).map fun p => if m p = c then some p else none

/-- strchr.c:10-33. -/
def strchrFrom (L : Nat) (m : Mem) (c a : Nat) : Option (Option Nat) :=
  if a % 8 ≠ 0 then
    if h : a < L then
      if m a = c then some (some a) else if m a = 0 then some none else strchrFrom L m c (a + 1)
    else none
  else strchrWords L m c a
termination_by L - a

/-- `strchr`, strchr.c:5-34. -/
def strchr (L : Nat) (m : Mem) (s : Nat) (c : Int) : Option (Option Nat) := strchrFrom L m (uchar c) s

/-- strcpy.c:5. -/
def strcpy (L : Nat) (m : Mem) (d s : Nat) : Option Mem :=
  if h : s < L ∧ d < L then
    if m s = 0 then some (put m d (m s)) else strcpy L (put m d (m s)) (d + 1) (s + 1)
  else none
termination_by L - s

/-- `strcat`, strcat.c:3-8. -/
def strcat (L : Nat) (m : Mem) (d s : Nat) : Option Mem := do
  let n ← strlen L m d
  strcpy L m (d + n) s

/-- strncat.c:7. -/
def strncatLoop (L : Nat) : Nat → Nat → Nat → Mem → Option Mem
  | 0, _, _, m => some m
  | k + 1, d, s, m =>
    if s < L ∧ d < L then
      if m s = 0 then some (put m d (m s)) else strncatLoop L k (d + 1) (s + 1) (put m d (m s))
    else none

/-- `strncat`, strncat.c:3-10. -/
def strncat (L : Nat) (m : Mem) (d s n : Nat) : Option Mem := do
  let k ← strlen L m d
  strncatLoop L n (d + k) s m

/-- strncpy.c:7-11. -/
def strncpy (L : Nat) : Nat → Nat → Nat → Mem → Option Mem
  | 0, _, _, m => some m
  | k + 1, d, s, m =>
    if s < L then
      if m s ≠ 0 then if d < L then strncpy L k (d + 1) (s + 1) (put m d (m s)) else none
      else memset L m d 0 (k + 1)
    else none

/-- `strcmp`, strcmp.c:6-11. -/
def strcmp (L : Nat) (m : Mem) (x y : Nat) : Option Int :=
  if h : x < L ∧ y < L then
    if m x = m y ∧ m x ≠ 0 then strcmp L m (x + 1) (y + 1) else some ((m x : Int) - m y)
  else none
termination_by L - x

/-- `strncmp`, strncmp.c:8-16. -/
def strncmp (L : Nat) (m : Mem) : Nat → Nat → Nat → Option Int
  | _, _, 0 => some 0
  | x, y, k + 1 =>
    if x < L ∧ y < L then
      if m x ≠ m y ∨ m x = 0 then some ((m x : Int) - m y) else strncmp L m (x + 1) (y + 1) k
    else none

/-- `strcoll`, strcoll.c:4-7. -/
def strcoll (L : Nat) (m : Mem) (x y : Nat) : Option Int := strcmp L m x y

/-- `strxfrm`, strxfrm.c:6-15: the memory and the value returned. -/
def strxfrm (L : Nat) (m : Mem) (d s n : Nat) : Option (Mem × Nat) := do
  let len ← strlen L m s
  if n ≠ 0 then
    let c := if len < n then len else n - 1
    let m ← memcpy L m d s c
    if d + c < L then some (put m (d + c) 0, len) else none
  else some (m, len)

/-- strrchr.c:13-16: `found` is the last candidate; each candidate is at or after `s`, so `L` calls
suffice. -/
def strrchrLoop (L : Nat) (m : Mem) (c : Int) : Nat → Nat → Option Nat → Option (Option Nat)
  | 0, _, _ => none
  | fuel + 1, s, found => do
    match ← strchr L m s c with
    | some p => strrchrLoop L m c fuel (p + 1) (some p)
    | none => some found

/-- `strrchr`, strrchr.c:3-19. -/
def strrchr (L : Nat) (m : Mem) (s : Nat) (c : Int) : Option (Option Nat) :=
  if uchar c = 0 then (strlen L m s).map fun n => some (s + n)
  else strrchrLoop L m c (L + 1) s none

/-- `find_`, strspn.c:3-10: whether the result is not null. -/
def spnFind (L : Nat) (m : Mem) (c a : Nat) : Option Bool :=
  if h : a < L then
    if m a = 0 then some false else if m a = c then some true else spnFind L m c (a + 1)
  else none
termination_by L - a

/-- `strspn`, strspn.c:12-20; `a` is `string + count`. The result is the address where the loop ends. -/
def strspnFrom (L : Nat) (m : Mem) (accept a : Nat) : Option Nat :=
  if h : a < L then
    match spnFind L m (m a) accept with
    | none => none
    | some true => strspnFrom L m accept (a + 1)
    | some false => some a
  else none
termination_by L - a

/-- `strspn`, strspn.c:12-20. -/
def strspn (L : Nat) (m : Mem) (s accept : Nat) : Option Nat := (strspnFrom L m accept s).map (· - s)

/-- The loop of strcspn.c:7-8 and strpbrk.c:5-6: the address where it ends. `char` is converted to `int`
and back to `unsigned char` by `strchr`. -/
def strcspnFrom (L : Nat) (m : Mem) (set a : Nat) : Option Nat :=
  if h : a < L then
    match strchr L m set (m a) with
    | none => none
    | some none => strcspnFrom L m set (a + 1)
    | some (some _) => some a
  else none
termination_by L - a

/-- `strcspn`, strcspn.c:3-11. -/
def strcspn (L : Nat) (m : Mem) (s reject : Nat) : Option Nat := (strcspnFrom L m reject s).map (· - s)

/-- `strpbrk`, strpbrk.c:3-9. -/
def strpbrk (L : Nat) (m : Mem) (s set : Nat) : Option (Option Nat) :=
  (strcspnFrom L m set s).map fun a => if m a ≠ 0 then some a else none

/-- `strtok_r`, strtok.c:3-19: the memory, the new state and the value returned. -/
def strtokR (L : Nat) (m : Mem) (string : Option Nat) (seps : Nat) (state : Option Nat) :
    Option (Mem × Option Nat × Option Nat) :=
  match (match string with | some s => some s | none => state) with
  | none => some (m, state, none)
  | some s => do
    let k ← strspn L m s seps
    let s := s + k
    if s < L then
      if m s = 0 then some (m, none, none)
      else
        match ← strpbrk L m s seps with
        | none => some (m, none, some s)
        | some p => if p < L then some (put m p 0, some (p + 1), some s) else none
    else none

/-- A caller that calls `strtok_r` `n` times, the first time with `string`, then with a null pointer: the
memory and the values returned. -/
def strtokCalls (L : Nat) (m : Mem) (string : Option Nat) (seps : Nat) (state : Option Nat) :
    Nat → Option (Mem × List (Option Nat))
  | 0 => some (m, [])
  | n + 1 => do
    let (m, state, r) ← strtokR L m string seps state
    let (m, rs) ← strtokCalls L m none seps state n
    return (m, r :: rs)

end Verif.Str
