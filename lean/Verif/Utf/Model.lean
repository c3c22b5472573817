import Verif.Base

/-!
# Model of the multibyte conversions (`src/wchar`, `src/uchar`, `src/stdlib`)

Bytes are `Nat`s below 256, `wchar_t`/`char32_t`/`mbstate_t.__code` are `Nat`s below 2^32
(the bit pattern), `char16_t` below 2^16.  A byte buffer of `n` readable bytes is a list of
length `n`; the model reads only list elements, so an out-of-range read cannot be hidden.
-/

namespace Verif.Utf

/-- `(size_t)-1` -/
def ERR : Nat := 4294967295
/-- `(size_t)-2` -/
def INC : Nat := 4294967294
/-- `(size_t)-3` -/
def STASHED : Nat := 4294967293

/-- Outcome of a call: return value, character stored through `pwc` (if any), new `ps->__code`,
and whether `errno` was set to EILSEQ. -/
structure MbOut where
  ret : Nat
  wc : Option Nat
  state : Nat
  eilseq : Bool
  deriving DecidableEq, Repr

/-- `fail_`, src/wchar/mbrtowc.c:17-21; `*ps` keeps its value `saved`. -/
def fail_ (saved : Nat) : MbOut := ⟨ERR, none, saved, true⟩

/-- src/wchar/mbrtowc.c:89-105: range checks and store. -/
def finish (saved total code consumed : Nat) : MbOut :=
  let bad : Bool :=
    if total = 2 then decide (code < 0x80)
    else if total = 3 then decide (code < 0x800 ∨ (code ≥ 0xD800 ∧ code ≤ 0xDFFF))
    else decide (code < 0x10000 ∨ code > 0x10FFFF)
  if bad then fail_ saved
  else ⟨if code ≠ 0 then consumed else 0, some code, 0, false⟩

/-- src/wchar/mbrtowc.c:72-87, the `while (absorbed < total)` loop followed by the checks.
`rest` is the unread part `p[consumed..n-1]`; it is empty iff `consumed == n`. -/
def absorb (saved total : Nat) (absorbed code consumed : Nat) (rest : List Nat) : MbOut :=
  if absorbed < total then
    match rest with
    | [] => ⟨INC, none, ((total <<< 28) % 2^32 ||| (absorbed <<< 24) % 2^32 ||| (code &&& 0xFFFFFF)), false⟩
    | byte :: rest =>
      if (byte &&& 0xC0) ≠ 0x80 then fail_ saved
      else absorb saved total (absorbed + 1) ((code <<< 6) % 2^32 ||| (byte &&& 0x3F)) (consumed + 1) rest
  else finish saved total code consumed
termination_by rest.length

/-- `mbrtowc(pwc, s, n, ps)` with `s` not null, src/wchar/mbrtowc.c:34-106.
`saved` is `ps->__code`, `p` the `n` bytes at `s`.  The store `*pwc` is reported in `wc`
(the code performs it only if `pwc` is not null; the return value is the same). -/
def mbrtowc (saved : Nat) (p : List Nat) : MbOut :=
  match p with
  | [] => ⟨INC, none, saved, false⟩
  | lead :: rest =>
    let total := saved >>> 28
    let absorbed := (saved >>> 24) &&& 0xF
    let code := saved &&& 0xFFFFFF
    if total = 0 then
      if lead < 0x80 then ⟨if lead ≠ 0 then 1 else 0, some lead, 0, false⟩
      else if lead < 0xC2 ∨ lead > 0xF4 then fail_ saved
      else if lead < 0xE0 then absorb saved 2 1 (lead &&& 0x1F) 1 rest
      else if lead < 0xF0 then absorb saved 3 1 (lead &&& 0x0F) 1 rest
      else absorb saved 4 1 (lead &&& 0x07) 1 rest
    else absorb saved total absorbed code 0 p

/-- `wcrtomb(s, c, state)` with `s` not null, src/wchar/wcrtomb.c:5-40.
Result: return value and the bytes stored at `s`.  `char` stores keep the low 8 bits. -/
def wcrtomb (code : Nat) : Nat × List Nat :=
  if code < 0x80 then (1, [code % 256])
  else if code < 0x800 then
    (2, [(0xC0 ||| code >>> 6) % 256, (0x80 ||| (code &&& 0x3F)) % 256])
  else if code < 0xD800 ∨ (code + 2^32 - 0xE000) % 2^32 < 0x2000 then
    (3, [(0xE0 ||| code >>> 12) % 256, (0x80 ||| (code >>> 6 &&& 0x3F)) % 256, (0x80 ||| (code &&& 0x3F)) % 256])
  else if (code + 2^32 - 0x10000) % 2^32 < 0x100000 then
    (4, [(0xF0 ||| code >>> 18) % 256, (0x80 ||| (code >>> 12 &&& 0x3F)) % 256,
         (0x80 ||| (code >>> 6 &&& 0x3F)) % 256, (0x80 ||| (code &&& 0x3F)) % 256])
  else (ERR, [])

/-- `mbsinit`, src/wchar/mbsinit.c:3-6 (non-null argument) -/
def mbsinit (state : Nat) : Bool := state == 0

/-- Result of `c16rtomb`: return value, bytes stored, new state. -/
structure C16Out where
  ret : Nat
  bytes : List Nat
  state : Nat
  deriving DecidableEq, Repr

/-- `c16rtomb(s, c, ps)` with `s` not null, src/uchar/c16rtomb.c:10-39.
`wcrtomb` does not touch the state.  `c` is below 2^16, so `c - 0xD800u` wraps modulo 2^32. -/
def c16rtomb (pending c : Nat) : C16Out :=
  if (c + 2^32 - 0xD800) % 2^32 < 0x400 then ⟨0, [], c⟩
  else if (c + 2^32 - 0xDC00) % 2^32 < 0x400 then
    if (pending + 2^32 - 0xD800) % 2^32 ≥ 0x400 then ⟨ERR, [], pending⟩
    else
      let cp := 0x10000 + (((pending &&& 0x3FF) <<< 10) ||| (c &&& 0x3FF))
      let r := wcrtomb cp
      ⟨r.1, r.2, 0⟩
  else if (pending + 2^32 - 0xD800) % 2^32 < 0x400 then ⟨ERR, [], pending⟩
  else
    let r := wcrtomb c
    ⟨r.1, r.2, pending⟩

/-- `mbrtoc16(pc, s, n, ps)` with `s` and `pc` not null, src/uchar/mbrtoc16.c:11-43. -/
def mbrtoc16 (state : Nat) (p : List Nat) : MbOut :=
  if (state + 2^32 - 0xDC00) % 2^32 < 0x400 then ⟨STASHED, some (state % 2^16), 0, false⟩
  else
    let o := mbrtowc state p
    if o.ret = ERR ∨ o.ret = INC then o
    else
      match o.wc with
      | none => o      -- not reachable: every other return stores a character
      | some cp =>
        if cp < 0x10000 then { o with wc := some (cp % 2^16) }
        else
          let v := cp - 0x10000
          { o with wc := some ((0xD800 ||| (v >>> 10)) % 2^16), state := 0xDC00 ||| (v &&& 0x3FF) }

/-- `mbrtoc32(pc, s, n, ps)`, src/uchar/mbrtoc32.c:4-13. -/
def mbrtoc32 (state : Nat) (p : List Nat) : MbOut := mbrtowc state p

/-- `c32rtomb`, src/uchar/c32rtomb.c:4-7. -/
def c32rtomb (c : Nat) : Nat × List Nat := wcrtomb c

/-- `btowc`, src/wchar/btowc.c:4-7; `WEOF` is `(wint_t)-1`. -/
def btowc (c : Int) : Nat := if c = -1 ∨ u32 c ≥ 0x80 then 4294967295 else u32 c % 256

/-- `wctob`, src/wchar/wctob.c:4-7; `EOF` is -1 and `wint_t` is `int`. -/
def wctob (c : Int) : Int := if c < 0x80 then c else -1

/-- Result of `mbtowc`/`mblen`: return value and the static state left behind. -/
def mbtowc (state : Nat) (p : List Nat) : Int × Option Nat × Nat :=
  -- src/stdlib/mbtowc.c:4-22 (s not null); mblen.c:4-22 has the same shape
  let o := mbrtowc state p
  if o.ret = ERR ∨ o.ret = INC then (-1, none, 0) else (o.ret, o.wc, o.state)

/-- Outcome of the string conversions: return value, stored elements, and the final `*src`
as an offset (`none` = null pointer). -/
structure StrOut where
  ret : Nat
  dst : List Nat
  src : Option Nat
  deriving DecidableEq, Repr

/-- `wcsrtombs` with `dst` not null, src/wchar/wcsrtombs.c:13-49.
`ws` are the wide characters from `p` on, `off` the offset of `p`, `out` the bytes written so far
(`written = out.length`).  Running off the end of `ws` (no terminator) is `none`. -/
def wcsrtombsLoop (len : Nat) : List Nat → Nat → List Nat → Option StrOut
  | ws, off, out =>
    if out.length < len then
      match ws with
      | [] => none
      | w :: ws =>
        if w = 0 then some ⟨out.length, out ++ [0], none⟩
        else
          let r := wcrtomb w
          if r.1 = ERR then some ⟨ERR, out, some off⟩
          else if out.length + r.1 > len then some ⟨out.length, out, some off⟩
          else wcsrtombsLoop len ws (off + 1) (out ++ r.2)
    else some ⟨out.length, out, some off⟩

def wcsrtombs (len : Nat) (ws : List Nat) : Option StrOut := wcsrtombsLoop len ws 0 []

/-- `wcsrtombs` with `dst` null, src/wchar/wcsrtombs.c:51-65: the count, `ERR`, or `none` when the
wide string is not terminated.  `*src` is not modified. -/
def wcsrtombsCount : List Nat → Nat → Option Nat
  | [], _ => none
  | w :: ws, written =>
    if w = 0 then some written
    else
      let r := wcrtomb w
      if r.1 = ERR then some ERR else wcsrtombsCount ws (written + r.1)

/-- `mbsrtowcs` with `dst` not null, src/wchar/mbsrtowcs.c:12-35.  The bytes from `p` on are `bs`
(`n = SIZE_MAX/2` exceeds any string, so the bound never matters while a terminator is present);
running off the end of the readable bytes is `none`. -/
def mbsrtowcsLoop (len : Nat) : Nat → Nat → List Nat → Nat → List Nat → Option StrOut
  | 0, _, _, off, out => if out.length < len then none else some ⟨out.length, out, some off⟩
  | fuel + 1, st, bs, off, out =>
    if out.length < len then
      let o := mbrtowc st bs
      if o.ret = ERR then some ⟨ERR, out, some off⟩
      else
        match o.wc with
        | none => none
        | some wc =>
          if wc = 0 then some ⟨out.length, out ++ [0], none⟩
          else mbsrtowcsLoop len fuel o.state (bs.drop o.ret) (off + o.ret) (out ++ [wc])
    else some ⟨out.length, out, some off⟩

/-- Each iteration that continues consumes at least one byte, so `bs.length` iterations suffice. -/
def mbsrtowcs (len st : Nat) (bs : List Nat) : Option StrOut := mbsrtowcsLoop len bs.length st bs 0 []

end Verif.Utf
