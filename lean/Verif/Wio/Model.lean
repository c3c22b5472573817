import Verif.Stdio.Model
import Verif.Utf.Model
import Verif.Wide.Model

/-!
# Model of the wide streams of `src/wchar`

A stream is the byte stream of `Verif/Stdio/Model.lean` with the two further members of `src/stdio/FILE.h`: the
orientation and the wide character pushed back. A wide character is given by its 32-bit pattern, a natural number;
`wchar_t` and `wint_t` are both `int`, so the comparison with `WEOF` compares the patterns. The function pointers
`read` and `write` are those of an opened file (`src/stdio/_read.c`, `src/stdio/_write.c`). `errno` is left out.
`getwc`, `getwchar`, `putwc` and `putwchar` only call `fgetwc` and `fputwc`.
-/

namespace Verif.Wio

open Stdio (Reader Writer Seeker)

/-- `WEOF` (`include/wchar.h`), -1. -/
def WEOF : Nat := 4294967295

/-- `struct FILE` (`src/stdio/FILE.h:10-28`): the byte stream, `orient`, and `pushback` when `wpushbit_` is set in
`state`. -/
structure WFile (σ : Type) where
  file : Stdio.File σ
  orient : Int
  push : Option Nat

/-- fgetwc.c:8-9, fputwc.c:8-9, ungetwc.c:10-11: the orientation becomes wide if there is none yet. -/
def widen {σ : Type} (f : WFile σ) : WFile σ := if f.orient = 0 then { f with orient := 1 } else f

/-- fgetwc.c:18-33: at most `fuel` bytes, from the conversion state `st`. `none` when these are not enough or `wc`
is returned without having been set. -/
def getLoop {σ : Type} (R : Reader σ) : Nat → Nat → Stdio.File σ → Option (Nat × Stdio.File σ)
  | 0, _, _ => none
  | fuel + 1, st, f =>
    match Stdio.getc R f with
    | (c, f) =>
      if c = Stdio.EOF then some (WEOF, { f with eof := true })
      else
        let o := Utf.mbrtowc st [(c % 256).toNat]
        if o.ret = Utf.ERR then some (WEOF, { f with err := true })
        else if o.ret = Utf.INC then getLoop R fuel o.state f
        else o.wc.map fun w => (w, f)

/-- `fgetwc`, fgetwc.c:6-34. Five bytes are more than the loop ever takes (`C111_fgetwc`). -/
def fgetwc {σ : Type} (R : Reader σ) (f : WFile σ) : Option (Nat × WFile σ) :=
  let f := widen f
  match f.push with
  | some c => some (c, { f with push := none })
  | none => (getLoop R 5 0 f.file).map fun r => (r.1, { f with file := r.2 })

/-- Conversion to `wchar_t`. -/
def wchar (c : Nat) : Int := if c < 2 ^ 31 then (c : Int) else c - 2 ^ 32

/-- The loop of `fgetws`, fgetws.c:9-20, from `s[i]` with `k = n - 1 - i`. The result is the final `i`, or `none`
for a null pointer. -/
def fgetwsLoop {σ : Type} (R : Reader σ) (s : Nat) :
    Nat → Nat → Wide.Mem → WFile σ → Option (Option Nat × Wide.Mem × WFile σ)
  | 0, i, m, f => some (some i, m, f)
  | k + 1, i, m, f =>
    match fgetwc R f with
    | none => none
    | some (c, f) =>
      if c = WEOF then some (if i = 0 then none else some i, m, f)
      else
        let m := Wide.put m (s + i) (wchar c)
        if c = 10 then some (some (i + 1), m, f) else fgetwsLoop R s k (i + 1) m f

/-- `fgetws`, fgetws.c:4-24: whether the result is `s`, the memory and the stream. -/
def fgetws {σ : Type} (R : Reader σ) (m : Wide.Mem) (s : Nat) (n : Int) (f : WFile σ) :
    Option (Bool × Wide.Mem × WFile σ) :=
  if n ≤ 0 then some (false, m, f)
  else
    match fgetwsLoop R s (n - 1).toNat 0 m f with
    | none => none
    | some (none, m, f) => some (false, m, f)
    | some (some i, m, f) => some (true, Wide.put m (s + i) 0, f)

/-- `fputwc`, fputwc.c:6-24. -/
def fputwc {σ : Type} (W : Writer σ) (c : Nat) (f : WFile σ) : Nat × WFile σ :=
  let f := widen f
  match Utf.wcrtomb c with
  | (n, buf) =>
    if n = Utf.ERR then (WEOF, { f with file := { f.file with err := true } })
    else
      match Stdio.stdioWrite W f.file buf with
      | (k, file) =>
        if k ≠ n then (WEOF, { f with file := { file with err := true } }) else (c, { f with file := file })

/-- `fputws`, fputws.c:4-10, of a string with contents `cs`. -/
def fputws {σ : Type} (W : Writer σ) : List Nat → WFile σ → Int × WFile σ
  | [], f => (0, f)
  | c :: cs, f =>
    match fputwc W c f with
    | (r, f) => if r = WEOF then (-1, f) else fputws W cs f

/-- `ungetwc`, ungetwc.c:5-17. -/
def ungetwc {σ : Type} (c : Nat) (f : WFile σ) : Nat × WFile σ :=
  if c = WEOF ∨ f.push.isSome then (WEOF, f)
  else
    let f := widen f
    (c, { f with push := some c, file := { f.file with eof := false } })

/-- `fwide`, fwide.c:4-9. -/
def fwide {σ : Type} (f : WFile σ) (mode : Int) : Int × WFile σ :=
  let f := if f.orient = 0 ∧ mode ≠ 0 then { f with orient := if mode > 0 then 1 else -1 } else f
  (f.orient, f)

/-- `clearerr`, src/stdio/clearerr.c:3-6: `state = 0` clears `wpushbit_` too. -/
def clearerr {σ : Type} (f : WFile σ) : WFile σ := { f with file := Stdio.clearerr f.file, push := none }

/-- `fseek`, src/stdio/fseek.c:4-17: `wpushbit_` is left as it is. -/
def fseek {σ : Type} (S : Seeker σ) (f : WFile σ) (off : Int) (origin : Nat) : Int × WFile σ :=
  match Stdio.fseek S f.file off origin with
  | (r, file) => (r, { f with file := file })

/-- `getc`, src/stdio/getc.h:7-14, on such a stream: the orientation is left as it is. -/
def getc {σ : Type} (R : Reader σ) (f : WFile σ) : Int × WFile σ :=
  match Stdio.getc R f.file with
  | (c, file) => (c, { f with file := file })

/-- `putc`, src/stdio/putc.h:7-12, on such a stream: the orientation is left as it is. -/
def putc {σ : Type} (W : Writer σ) (c : Int) (f : WFile σ) : Int × WFile σ :=
  match Stdio.putc W c f.file with
  | (r, file) => (r, { f with file := file })

end Verif.Wio
