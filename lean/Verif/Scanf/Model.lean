import Verif.Strtol.Model
import Verif.Ctype.Model

/-!
# Model of formatted input (src/stdio/vfscanf.c, vsscanf.c)

The source of a scan is the sequence of bytes that successive calls of `getc_` on the stream return
before the first `EOF`: the scanner remembers the first `EOF` (line 33) and does not ask again.
Bytes are integers from 0 to 255, `EOF` is -1. The format is the list of its bytes before the
terminator. The arguments after the format are pointers, numbered from 0; what a scan stores through
them is recorded as a list of objects.

`none` is undefined behaviour: a push-back outside the array `peek`, a signed overflow in the field
width, `va_arg` without an argument left, or `strtoll` on a value where it is undefined. It also
stands for a loop that runs out of the steps given to it; every loop gets more steps than there are
characters, and each turn reads one.
-/

namespace Verif.Scanf

/-- `struct Scanner`, vfscanf.c:13-20. `peek` is a stack, its top first; `n_peek` is its length;
`input` is what the stream still holds. -/
structure Scanner where
  input : List Int
  count : Nat
  peek : List Int
  eof : Bool
  deriving DecidableEq, Repr

/-- `sgetc`, vfscanf.c:22-38. -/
def sgetc (s : Scanner) : Int × Scanner :=
  match s.peek with
  | c :: rest => (c, { s with peek := rest, count := (s.count + 1) % 4294967296 })
  | [] =>
    if s.eof then (-1, s)
    else
      match s.input with
      | [] => (-1, { s with eof := true })
      | c :: rest => (c, { s with input := rest, count := (s.count + 1) % 4294967296 })

/-- `sungetc`, vfscanf.c:40-46. The array has eight elements. -/
def sungetc (s : Scanner) (c : Int) : Option Scanner :=
  if c = -1 then some s
  else if s.peek.length < 8 then
    some { s with peek := c :: s.peek, count := (s.count + 4294967295) % 4294967296 }
  else none

/-- `isspace(c)` as a condition. `isspace` is defined for every byte and for `EOF`. -/
def space (c : Int) : Bool :=
  match Ctype.isspace c with
  | some r => r ≠ 0
  | none => false

/-- More steps than there are characters left. -/
def steps (s : Scanner) : Nat := s.peek.length + s.input.length + 1

/-- The loop of `skip_ws`, vfscanf.c:51. -/
def skipLoop : Nat → Scanner → Option (Int × Scanner)
  | 0, _ => none
  | k + 1, s =>
    match sgetc s with
    | (c, s) => if c ≠ -1 ∧ space c = true then skipLoop k s else some (c, s)

/-- `skip_ws`, vfscanf.c:48-53. -/
def skipWs (s : Scanner) : Option Scanner := do
  let (c, s) ← skipLoop (steps s) s
  sungetc s c

/-- The loops that take characters, vfscanf.c:130-142, 168-172, 308-314, 321-327, 351-356, 409-416:
`while (width > 0 && c != EOF && p(c)) { store c; --width; c = sgetc(); }`. The result is the
characters stored, the width left, the last character read and the scanner. The loops at 168 and 409
also decrement the width when it is not positive and never look at it again; the loop at 351 has no
test for `EOF`, which is not a digit. -/
def run (p : Int → Bool) : Nat → Int → Int → Scanner → Option (List Int × Int × Int × Scanner)
  | 0, _, _, _ => none
  | k + 1, width, c, s =>
    if 0 < width ∧ c ≠ -1 ∧ p c = true then
      match sgetc s with
      | (c', s) => (run p k (width - 1) c' s).map fun (l, r) => (c :: l, r)
    else some ([], width, c, s)

/-- Conversion of a byte to `char`, which is signed. -/
def toChar (c : Int) : Int := if c < 128 then c else c - 256

/-- `if (n < BUFSZ - 1) buf[n++] = c;` for each character in turn; `BUFSZ` is 128 (vfscanf.c:11). -/
def fill (buf l : List Int) : List Int := (buf ++ l.map toChar).take 127

/-- `length_`, vfscanf.c:55-63: the letter and the number of characters, which is `length & 3`. -/
def length (p : List Int) : Int × Nat :=
  match p with
  | 104 :: q => (104, if q.head? = some 104 then 2 else 1)
  | 108 :: q => (108, if q.head? = some 108 then 2 else 1)
  | 106 :: _ => (106, 1)
  | 122 :: _ => (122, 1)
  | 116 :: _ => (116, 1)
  | 76 :: _ => (76, 1)
  | _ => (0, 0)

/-- What a scan stores through a pointer: an integer object of so many bytes, a string with its
terminator, an array of characters, or a floating-point object with the value that `strtof`,
`strtod` or `strtold` (chosen by the length modifier) has for the text. -/
inductive Obj where
  | int (size : Nat) (bits : Nat)
  | text (bs : List Int)
  | chars (bs : List Int)
  | real (length : Int × Nat) (buf : List Int)
  deriving DecidableEq, Repr

/-- Size of the object chosen by `store_int_` and `store_n_`, vfscanf.c:71-79, 81-89, 425-433:
`intmax_t` has 64 bits, `ptrdiff_t` and `size_t` have 32. -/
def width (l : Int × Nat) : Nat :=
  if l = (0, 0) then 4 else if l = (104, 1) then 2 else if l = (104, 2) then 1
  else if l = (108, 1) then 4 else if l = (108, 2) then 8 else if l = (106, 1) then 8 else 4

/-- The stores of a conversion: nothing when the argument is a null pointer. -/
def store (arg : Option Nat) (o : Obj) : List (Nat × Obj) :=
  match arg with
  | none => []
  | some k => [(k, o)]

/-- What a conversion function returns, the scanner after it, and what it stored. -/
abbrev Ret := Int × Scanner × List (Nat × Obj)

/-- The label `done` of `scan_int`, vfscanf.c:144-158, with `store_int_`, vfscanf.c:65-91: the value
is reduced to the size of the object. -/
def intDone (s : Scanner) (c : Int) (seen : Bool) (buf : List Int) (base : Nat) (sign : Bool)
    (len : Int × Nat) (arg : Option Nat) : Option Ret := do
  let s ← sungetc s c
  if !seen then return (0, s, [])
  let r ← if sign then Strtol.strtoll buf base else Strtol.strtoull buf base
  return (1, s, store arg (.int (width len) (r.value % 2 ^ (8 * width len)).toNat))

/-- The value of a character as a digit, vfscanf.c:131-136, compared with the base. -/
def below (base : Nat) (c : Int) : Bool :=
  if 48 ≤ c ∧ c ≤ 57 then c - 48 < base
  else if 97 ≤ c ∧ c ≤ 122 then c - 97 + 10 < base
  else if 65 ≤ c ∧ c ≤ 90 then c - 65 + 10 < base
  else false

/-- vfscanf.c:127-158. -/
def intDigits (s : Scanner) (c width : Int) (seen : Bool) (buf : List Int) (base : Nat) (sign : Bool)
    (len : Int × Nat) (arg : Option Nat) : Option Ret := do
  let base := if base = 0 then 10 else base
  let (l, _, c, s) ← run (below base) (steps s + 1) width c s
  intDone s c (seen || !l.isEmpty) (fill buf l) base sign len arg

/-- vfscanf.c:111-158. -/
def intZero (s : Scanner) (c width : Int) (buf : List Int) (base : Nat) (sign : Bool)
    (len : Int × Nat) (arg : Option Nat) : Option Ret :=
  if c = 48 ∧ 0 < width then
    let buf := fill buf [c]
    if width - 1 = 0 then intDone s c true buf base sign len arg
    else
      match sgetc s with
      | (c, s) =>
        if (c = 120 ∨ c = 88) ∧ (base = 0 ∨ base = 16) then
          let buf := fill buf [c]
          if width - 1 - 1 = 0 then intDone s c false buf 16 sign len arg
          else
            match sgetc s with
            | (c, s) => intDigits s c (width - 1 - 1) false buf 16 sign len arg
        else intDigits s c (width - 1) true buf (if base = 0 then 8 else base) sign len arg
  else intDigits s c width false buf base sign len arg

/-- `scan_int`, vfscanf.c:93-159. -/
def scanInt (s : Scanner) (width : Int) (base : Nat) (sign : Bool) (len : Int × Nat)
    (arg : Option Nat) : Option Ret := do
  let s ← skipWs s
  match sgetc s with
  | (c, s) =>
    if c = -1 then return (-1, s, [])
    if c = 43 ∨ c = 45 then
      let buf := fill [] [c]
      if width - 1 = 0 then intDone s c false buf base sign len arg
      else
        match sgetc s with
        | (c, s) => intZero s c (width - 1) buf base sign len arg
    else intZero s c width [] base sign len arg

/-- `scan_str`, vfscanf.c:161-177. -/
def scanStr (s : Scanner) (width : Int) (arg : Option Nat) : Option Ret := do
  let s ← skipWs s
  match sgetc s with
  | (c, s) =>
    if c = -1 then return (-1, s, [])
    let (l, _, c, s) ← run (fun c => !space c) (steps s + 1) width c s
    let s ← sungetc s c
    if l = [] then return (0, s, [])
    return (1, s, store arg (.text l))

/-- The loop of `scan_chars`, vfscanf.c:185-190. -/
def charsLoop : Nat → Int → Int → Scanner → Option (List Int × Scanner)
  | 0, _, _, _ => none
  | k + 1, width, c, s =>
    if 0 < width ∧ c ≠ -1 then
      if width - 1 ≤ 0 then some ([c], s)
      else
        match sgetc s with
        | (c', s) => (charsLoop k (width - 1) c' s).map fun (l, s) => (c :: l, s)
    else some ([], s)

/-- `scan_chars`, vfscanf.c:179-193. -/
def scanChars (s : Scanner) (width : Int) (arg : Option Nat) : Option Ret := do
  match sgetc s with
  | (c, s) =>
    if c = -1 then return (-1, s, [])
    let (l, s) ← charsLoop (steps s + 1) width c s
    if l = [] then return (0, s, [])
    return (1, s, store arg (.chars l))

/-- `lower_`, vfscanf.c:196; `c | 0x20` adds 32 to a capital letter. -/
def lower (c : Int) : Int := if 65 ≤ c ∧ c ≤ 90 then c + 32 else c

/-- `scan_word_`, vfscanf.c:198-213: the number of characters matched, the width left, the buffer and
the scanner. -/
def scanWord : List Int → Scanner → Int → List Int → Option (Nat × Int × List Int × Scanner)
  | [], s, width, buf => some (0, width, buf, s)
  | w :: word, s, width, buf =>
    if 0 < width then
      match sgetc s with
      | (c, s) =>
        if c = -1 then some (0, width, buf, s)
        else if lower c ≠ w then do
          let s ← sungetc s c
          some (0, width, buf, s)
        else (scanWord word s (width - 1) (fill buf [c])).map fun (m, r) => (m + 1, r)
    else some (0, width, buf, s)

/-- The loop over the characters after `nan(`, vfscanf.c:271-277. -/
def nanLoop : Nat → Int → Scanner → List Int → Option (List Int × Scanner)
  | 0, _, _, _ => none
  | k + 1, width, s, buf =>
    if 0 < width then
      match sgetc s with
      | (q, s) =>
        if q = -1 then some (buf, s)
        else
          let buf := fill buf [q]
          if q = 41 then some (buf, s) else nanLoop k (width - 1) s buf
    else some (buf, s)

/-- `hex_digit_`, vfscanf.c:227-230, and `dec_digit_`, vfscanf.c:232. -/
def mantissa (hex : Bool) (c : Int) : Bool :=
  if hex then (48 ≤ c ∧ c ≤ 57) ∨ (97 ≤ c ∧ c ≤ 102) ∨ (65 ≤ c ∧ c ≤ 70) else 48 ≤ c ∧ c ≤ 57

/-- `c = (width > 0) ? sgetc(sc) : EOF`. -/
def next (width : Int) (s : Scanner) : Int × Scanner := if 0 < width then sgetc s else (-1, s)

/-- The label `done` of `scan_float`, vfscanf.c:371-374. -/
def floatDone (s : Scanner) (buf : List Int) (len : Int × Nat) (arg : Option Nat) : Ret :=
  (1, s, store arg (.real len buf))

/-- The optional exponent and the end, vfscanf.c:335-374. `buf[--n]` on line 362 is the last
character of the buffer, whichever it is. -/
def floatExp (s : Scanner) (c width : Int) (hex : Bool) (buf : List Int) (len : Int × Nat)
    (arg : Option Nat) : Option Ret :=
  if (c = (if hex then 112 else 101) ∨ c = (if hex then 112 else 101) - 32) ∧ 0 < width then do
    let saved := buf
    let buf := fill buf [c]
    match next (width - 1) s with
    | (after, s) =>
      let sgn : Bool := (after = 43 ∨ after = 45) ∧ 0 < width - 1
      let width := if sgn then width - 1 - 1 else width - 1
      let buf := if sgn then fill buf [after] else buf
      match (if sgn then next width s else (after, s)) with
      | (last, s) =>
        let (l, _, last, s) ← run (mantissa false) (steps s + 1) width last s
        if l = [] then
          let s ← sungetc s last
          let (s, buf) ← if sgn then (sungetc s (buf.getLast?.getD 0)).map fun s => (s, buf.dropLast)
            else some (s, buf)
          let s ← sungetc s (buf.getLast?.getD 0)
          return floatDone s saved len arg
        else
          let s ← sungetc s last
          return floatDone s (fill buf l) len arg
  else do
    let s ← sungetc s c
    return floatDone s buf len arg

/-- The radix point and what follows, vfscanf.c:316-374. -/
def floatPoint (s : Scanner) (c width : Int) (hex seen : Bool) (buf : List Int) (len : Int × Nat)
    (arg : Option Nat) : Option Ret :=
  if c = 46 ∧ 0 < width then
    match next (width - 1) s with
    | (c, s) => do
      let (l, width, c, s) ← run (mantissa hex) (steps s + 1) (width - 1) c s
      if seen ∨ l ≠ [] then floatExp s c width hex (fill (fill buf [46]) l) len arg
      else
        let s ← sungetc s c
        return (0, s, [])
  else if seen then floatExp s c width hex buf len arg
  else do
    let s ← sungetc s c
    return (0, s, [])

/-- The digits before the point and what follows, vfscanf.c:307-374. -/
def floatDigits (s : Scanner) (c width : Int) (hex seen : Bool) (buf : List Int) (len : Int × Nat)
    (arg : Option Nat) : Option Ret := do
  let (l, width, c, s) ← run (mantissa hex) (steps s + 1) width c s
  floatPoint s c width hex (seen || !l.isEmpty) (fill buf l) len arg

/-- vfscanf.c:252-374: after the sign. -/
def floatBody (s : Scanner) (c width : Int) (buf : List Int) (len : Int × Nat) (arg : Option Nat) :
    Option Ret :=
  if lower c = 105 then do
    let s ← sungetc s c
    let (m, width, buf, s) ← scanWord [105, 110, 102] s width buf
    if m ≠ 3 then return (0, s, [])
    if 0 < width then
      let (_, _, buf, s) ← scanWord [105, 110, 105, 116, 121] s width buf
      return floatDone s buf len arg
    return floatDone s buf len arg
  else if lower c = 110 then do
    let s ← sungetc s c
    let (m, width, buf, s) ← scanWord [110, 97, 110] s width buf
    if m ≠ 3 then return (0, s, [])
    if 0 < width then
      match sgetc s with
      | (p, s) =>
        if p = 40 then
          let (buf, s) ← nanLoop (steps s + 1) (width - 1) s (fill buf [40])
          return floatDone s buf len arg
        else
          let s ← sungetc s p
          return floatDone s buf len arg
    else return floatDone s buf len arg
  else if c = 48 ∧ 0 < width then
    let buf := fill buf [c]
    match next (width - 1) s with
    | (nx, s) =>
      if nx = 120 ∨ nx = 88 then
        let buf := fill buf [nx]
        match next (width - 1 - 1) s with
        | (c, s) => floatDigits s c (width - 1 - 1) true false buf len arg
      else floatDigits s nx (width - 1) false true buf len arg
  else floatDigits s c width false false buf len arg

/-- `scan_float`, vfscanf.c:234-378. -/
def scanFloat (s : Scanner) (width : Int) (len : Int × Nat) (arg : Option Nat) : Option Ret := do
  let s ← skipWs s
  match sgetc s with
  | (c, s) =>
    if c = -1 then return (-1, s, [])
    if c = 43 ∨ c = 45 then
      let buf := fill [] [c]
      if width - 1 = 0 then return (0, s, [])
      match sgetc s with
      | (c, s) => if c = -1 then return (0, s, []) else floatBody s c (width - 1) buf len arg
    else floatBody s c width [] len arg

/-- The loop of `parse_scanset_`, vfscanf.c:387-399: the bytes put in the map, as a predicate, and the
rest of the format. -/
def setLoop : Nat → Bool → List Int → (Int → Bool) → Option ((Int → Bool) × List Int)
  | 0, _, _, _ => none
  | _ + 1, _, [], map => some (map, [])
  | k + 1, first, lo :: p, map =>
    if first = true ∨ lo ≠ 93 then
      match p with
      | 45 :: hi :: q =>
        if hi ≠ 93 then
          setLoop k false q fun c => map c || (decide (min lo hi ≤ c) && decide (c ≤ max lo hi))
        else setLoop k false p fun c => map c || decide (c = lo)
      | _ => setLoop k false p fun c => map c || decide (c = lo)
    else some (map, p)

/-- `parse_scanset_`, vfscanf.c:380-401: the map, whether it is negated, the rest of the format. -/
def parseSet (p : List Int) : Option ((Int → Bool) × Bool × List Int) := do
  let (neg, p) := if p.head? = some 94 then (true, p.tail) else (false, p)
  let (map, p) ← setLoop (p.length + 1) true p fun _ => false
  return (map, neg, p)

/-- `scan_set_`, vfscanf.c:403-421. -/
def scanSet (s : Scanner) (width : Int) (map : Int → Bool) (neg : Bool) (arg : Option Nat) :
    Option Ret := do
  match sgetc s with
  | (c, s) =>
    if c = -1 then return (-1, s, [])
    let (l, _, c, s) ← run (fun c => map c != neg) (steps s + 1) width c s
    let s ← sungetc s c
    if l = [] then return (0, s, [])
    return (1, s, store arg (.text l))

/-- The field width, vfscanf.c:466-470. -/
def widthLoop : List Int → Int → Option (Int × List Int)
  | [], w => some (w, [])
  | c :: p, w =>
    if 48 ≤ c ∧ c ≤ 57 then do
      let w ← chk32 (w * 10)
      let w ← chk32 (w + (c - 48))
      widthLoop p w
    else some (w, c :: p)

/-- State of `vfscanf` between directives: the scanner, `assigned`, the position in the argument
list and the objects stored so far. -/
structure State where
  s : Scanner
  assigned : Nat
  arg : Nat
  out : List (Nat × Obj)
  deriving DecidableEq, Repr

/-- What `vfscanf` returns, and the state then. -/
structure Result where
  value : Int
  state : State
  deriving DecidableEq, Repr

/-- The conversions, vfscanf.c:480-521: `r`, -2 for `%n` and `%%`, and the rest of the format. Where
`vfscanf` returns from within the switch, the result is that of the same return statement further
down: -1 for line 513 (as line 524), 0 for lines 515 and 520 (as line 526). -/
def convert (s : Scanner) (conv width : Int) (len : Int × Nat) (arg : Option Nat) (p : List Int) :
    Option (Ret × List Int) :=
  if conv = 100 then (scanInt s width 10 true len arg).map (·, p)
  else if conv = 105 then (scanInt s width 0 true len arg).map (·, p)
  else if conv = 111 then (scanInt s width 8 false len arg).map (·, p)
  else if conv = 117 then (scanInt s width 10 false len arg).map (·, p)
  else if conv = 120 ∨ conv = 88 then (scanInt s width 16 false len arg).map (·, p)
  else if conv = 112 then (scanInt s width 16 false (108, 1) arg).map (·, p)
  else if conv = 102 ∨ conv = 70 ∨ conv = 101 ∨ conv = 69 ∨ conv = 103 ∨ conv = 71 ∨ conv = 97 ∨ conv = 65 then
    (scanFloat s width len arg).map (·, p)
  else if conv = 115 then (scanStr s width arg).map (·, p)
  else if conv = 99 then (scanChars s (if width = 2147483647 then 1 else width) arg).map (·, p)
  else if conv = 91 then do
    let (map, neg, p) ← parseSet p
    (scanSet s width map neg arg).map (·, p)
  else if conv = 110 then
    some ((-2, s, store arg (.int (Scanf.width len) (s.count % 2 ^ (8 * Scanf.width len)))), p)
  else if conv = 37 then
    match sgetc s with
    | (c, s) =>
      if c = -1 then some ((-1, s, []), p)
      else if c ≠ 37 then (sungetc s c).map fun s => ((0, s, []), p)
      else some ((-2, s, []), p)
  else some ((0, s, []), p)

/-- `return assigned ? assigned : EOF;` -/
def orEof (assigned : Nat) : Int := if assigned ≠ 0 then assigned else -1

/-- The loop of `vfscanf`, vfscanf.c:442-538, with `nargs` pointers after the format. -/
def loop (nargs : Nat) : Nat → List Int → State → Option Result
  | 0, _, _ => none
  | _ + 1, [], st => some ⟨st.assigned, st⟩
  | k + 1, f :: p, st =>
    if space f = true then do
      let s ← skipWs st.s
      loop nargs k p { st with s := s }
    else if f ≠ 37 then
      match sgetc st.s with
      | (c, s) =>
        if c = -1 then some ⟨orEof st.assigned, { st with s := s }⟩
        else if c ≠ f then do
          let s ← sungetc s c
          some ⟨st.assigned, { st with s := s }⟩
        else loop nargs k p { st with s := s }
    else do
      let suppress : Bool := p.head? = some 42
      let p := if suppress then p.tail else p
      let (w, p) ← widthLoop p 0
      let w := if w = 0 then 2147483647 else w
      let len := length p
      let p := p.drop len.2
      let conv := p.head?.getD 0
      let p := p.tail
      if !suppress && decide (nargs ≤ st.arg) then none
      else
        let arg := if suppress then none else some st.arg
        let ((r, s, out), p) ← convert st.s conv w len arg p
        let st := { st with s := s, arg := if suppress then st.arg else st.arg + 1, out := st.out ++ out }
        if r = -1 then some ⟨orEof st.assigned, st⟩
        else if r = 0 then some ⟨st.assigned, st⟩
        else if r = 1 ∧ suppress = false then loop nargs k p { st with assigned := st.assigned + 1 }
        else loop nargs k p st

/-- `vfscanf`, vfscanf.c:436-539 (also `fscanf`, `scanf`, `vscanf`). A scan starts with an empty
`peek`. -/
def vfscanf (input format : List Int) (nargs : Nat) : Option Result :=
  loop nargs (format.length + 1) format ⟨⟨input, 0, [], false⟩, 0, 0, []⟩

/-- `vsscanf`, vsscanf.c:18-28 (also `sscanf`): the source is the string. -/
def vsscanf (str format : List Int) (nargs : Nat) : Option Result := vfscanf str format nargs

end Verif.Scanf
