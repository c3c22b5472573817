import Verif.Base
import Verif.Time.Spec

/-!
# Model of `strftime` and `asctime` (src/time/strftime.c, asctime.c)

Bytes are `Char`s (only equality with ASCII characters and copying are used). The output buffer is
a function from offsets to bytes; every store goes through `Buf.set`. A C string argument is the
list of its bytes before the terminator. The outcome `none` is undefined behaviour (signed
overflow of a field). The Boolean is the overflow flag the C functions return.
-/

namespace Verif.Time

/-- The output buffer `buf` and the cursor `*pos`. -/
structure Buf where
  mem : Nat → Char
  pos : Nat

/-- A store into the buffer. -/
def Buf.set (b : Buf) (i : Nat) (c : Char) : Buf := { b with mem := fun j => if j = i then c else b.mem j }

/-- `append_char`, src/time/strftime.c:27-33. -/
def appendChar (max : Nat) (b : Buf) (c : Char) : Bool × Buf :=
  if b.pos ≥ max then (true, b)
  else (false, { b.set b.pos c with pos := b.pos + 1 })

/-- `append_str`, src/time/strftime.c:35-41. -/
def appendStr (max : Nat) (b : Buf) : List Char → Bool × Buf
  | [] => (false, b)
  | c :: s => match appendChar max b c with
    | (true, b') => (true, b')
    | (false, b') => appendStr max b' s

/-- The digits of `append_uint`, least significant first, src/time/strftime.c:50-57. The array
`tmp` is a list; its 20 elements suffice since a 32-bit `unsigned long` has at most 10 digits and
the widths are at most 4. -/
def uintDigits (n : Nat) : List Char :=
  if n < 10 then [Char.ofNat (48 + n % 10)]
  else Char.ofNat (48 + n % 10) :: uintDigits (n / 10)

/-- `append_uint`, src/time/strftime.c:45-65: pad, then output backwards. -/
def appendUint (max : Nat) (b : Buf) (n : Nat) (width : Nat) (pad : Char) : Bool × Buf :=
  let tmp := uintDigits n
  let tmp := tmp ++ List.replicate (width - tmp.length) pad
  appendStr max b tmp.reverse

/-- `wday_full`, src/time/strftime.c:11-13. -/
def wdayFull : List String := ["Sunday", "Monday", "Tuesday", "Wednesday", "Thursday", "Friday", "Saturday"]
/-- `wday_abbr`, src/time/strftime.c:14-16. -/
def wdayAbbr : List String := ["Sun", "Mon", "Tue", "Wed", "Thu", "Fri", "Sat"]
/-- `mon_full`, src/time/strftime.c:17-20. -/
def monFull : List String := ["January", "February", "March", "April", "May", "June", "July", "August",
  "September", "October", "November", "December"]
/-- `mon_abbr`, src/time/strftime.c:21-23. -/
def monAbbr : List String := ["Jan", "Feb", "Mar", "Apr", "May", "Jun", "Jul", "Aug", "Sep", "Oct", "Nov", "Dec"]

/-- `append_str` of a table entry, guarded by the range test of lines 104-115. -/
def appendName (max : Nat) (b : Buf) (table : List String) (i : Int) (last : Int) : Option (Bool × Buf) :=
  if i < 0 ∨ i > last then some (false, b)
  else match table[i.toNat]? with
    | some s => some (appendStr max b s.toList)
    | none => none

/-- `format`, src/time/strftime.c:154-174, with the conversion function as parameter. -/
def format (emit : Buf → Char → Option (Bool × Buf)) (max : Nat) (b : Buf) : List Char → Option (Bool × Buf)
  | [] => some (false, b)
  | ['%'] => some (appendChar max b '%')
  | '%' :: m :: rest =>
    if m = 'E' ∨ m = 'O' then
      match rest with
      | [] => some (appendChar max b '%')
      | c :: r => match emit b c with
        | none => none
        | some (true, b') => some (true, b')
        | some (false, b') => format emit max b' r
    else match emit b m with
      | none => none
      | some (true, b') => some (true, b')
      | some (false, b') => format emit max b' rest
  | c :: rest => match appendChar max b c with
    | (true, b') => some (true, b')
    | (false, b') => format emit max b' rest

/-- The `switch` of `emit_one`, src/time/strftime.c:75-151; `rec` is `emit_one` itself, called back
through `format` for the composite conversions. -/
def emitConv (tm : Tm) (max : Nat) (rec : Buf → Char → Option (Bool × Buf)) (b : Buf) (spec : Char) :
    Option (Bool × Buf) :=
    let sub (fmt : String) : Option (Bool × Buf) := format rec max b fmt.toList
    if spec = 'Y' then do return appendUint max b (u32 (← chk32 (tm.year + 1900))) 4 '0'
    else if spec = 'y' then do return appendUint max b (u32 ((← chk32 (tm.year + 1900)).tmod 100)) 2 '0'
    else if spec = 'C' then do return appendUint max b (u32 ((← chk32 (tm.year + 1900)).tdiv 100)) 2 '0'
    else if spec = 'm' then do return appendUint max b (u32 (← chk32 (tm.mon + 1))) 2 '0'
    else if spec = 'd' then some (appendUint max b (u32 tm.mday) 2 '0')
    else if spec = 'e' then some (appendUint max b (u32 tm.mday) 2 ' ')
    else if spec = 'H' then some (appendUint max b (u32 tm.hour) 2 '0')
    else if spec = 'I' then
      let h := tm.hour.tmod 12
      let h := if h = 0 then 12 else h
      some (appendUint max b (u32 h) 2 '0')
    else if spec = 'M' then some (appendUint max b (u32 tm.min) 2 '0')
    else if spec = 'S' then some (appendUint max b (u32 tm.sec) 2 '0')
    else if spec = 'j' then do return appendUint max b (u32 (← chk32 (tm.yday + 1))) 3 '0'
    else if spec = 'p' then some (appendStr max b (if tm.hour < 12 then "AM" else "PM").toList)
    else if spec = 'A' then appendName max b wdayFull tm.wday 6
    else if spec = 'a' then appendName max b wdayAbbr tm.wday 6
    else if spec = 'B' then appendName max b monFull tm.mon 11
    else if spec = 'b' ∨ spec = 'h' then appendName max b monAbbr tm.mon 11
    else if spec = 'c' then sub "%a %b %e %H:%M:%S %Y"
    else if spec = 'x' then sub "%m/%d/%y"
    else if spec = 'X' then sub "%H:%M:%S"
    else if spec = 'F' then sub "%Y-%m-%d"
    else if spec = 'T' then sub "%H:%M:%S"
    else if spec = 'R' then sub "%H:%M"
    else if spec = 'D' then sub "%m/%d/%y"
    else if spec = 'r' then sub "%I:%M:%S %p"
    else if spec = 'u' then some (appendUint max b (u32 (if tm.wday = 0 then 7 else tm.wday)) 0 ' ')
    else if spec = 'w' then some (appendUint max b (u32 tm.wday) 0 ' ')
    else if spec = 'Z' then some (false, b)
    else if spec = 'n' then some (appendChar max b '\n')
    else if spec = 't' then some (appendChar max b '\t')
    else if spec = '%' then some (appendChar max b '%')
    else match appendChar max b '%' with
      | (true, b') => some (true, b')
      | (false, b') => some (appendChar max b' spec)

/-- `emit_one`, src/time/strftime.c:72-152. The first argument bounds the recursion through
`format`; the composite conversions only use simple ones, so depth 2 is never exceeded. -/
def emitOne (tm : Tm) (max : Nat) : Nat → Buf → Char → Option (Bool × Buf)
  | 0, _, _ => none
  | depth + 1, b, spec => emitConv tm max (emitOne tm max depth) b spec

/-- `strftime`, src/time/strftime.c:176-187: the returned length and the final buffer contents. -/
def strftime (mem : Nat → Char) (maxsize : Nat) (fmt : List Char) (tm : Tm) : Option (Nat × (Nat → Char)) :=
  if maxsize = 0 then some (0, mem)
  else match format (emitOne tm (maxsize - 1) 2) (maxsize - 1) ⟨mem, 0⟩ fmt with
    | none => none
    | some (true, b) => some (0, b.mem)
    | some (false, b) => some (b.pos, (b.set b.pos '\x00').mem)

/-- `asctime`, src/time/asctime.c:11-16; `mem` is the contents of the static buffer on entry and
the result its contents on return. -/
def asctime (mem : Nat → Char) (tm : Tm) : Option (Nat → Char) :=
  (strftime mem 26 "%a %b %e %H:%M:%S %Y\n".toList tm).map Prod.snd

end Verif.Time
