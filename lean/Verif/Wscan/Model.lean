import Verif.Scanf.Model
import Verif.Utf.Model

/-!
# Model of formatted wide input

`src/wchar/vswscanf.c`, `src/wchar/vfwscanf.c` (also `swscanf`, `fwscanf`, `vwscanf`, `wscanf`).

The functions encode the wide format and the wide input in UTF-8 and let `vsscanf` or `vfscanf` read the bytes.
-/

namespace Verif.Wscan

open Verif.Scanf (Obj vfscanf vsscanf)

/-- What a callee that takes a `char*` sees of a buffer: the bytes before the terminator. -/
def cstr (buf : List Nat) : List Int := (buf.takeWhile (· ≠ 0)).map Int.ofNat

/-- Encoding a wide string in a fresh block, vswscanf.c:9-20 and vswscanf.c:23-31, vfwscanf.c:52-64: `none` is undefined
behaviour, `some none` the early return of -1; `a` says whether `malloc` succeeds. -/
def transcode (ws : List Nat) (a : Bool) : Option (Option (List Int)) :=
  (Utf.wcsrtombsCount ws 0).bind fun n =>
    if n = Utf.ERR then some none
    else if a = false then some none
    else (Utf.wcsrtombs (n + 1) ws).bind fun o => some (some (cstr o.dst))

/-- `vswscanf`, src/wchar/vswscanf.c:6-38: the value returned and the objects stored, each with the number of its pointer. `ws`
and `format` are the elements from the pointers on, `a1` and `a2` say whether the calls of `malloc` succeed. -/
def vswscanf (ws format : List Nat) (a1 a2 : Bool) (nargs : Nat) : Option (Int × List (Nat × Obj)) :=
  (transcode ws a1).bind fun
    | none => some (-1, [])
    | some buf => (transcode format a2).bind fun
      | none => some (-1, [])
      | some fmt => (vsscanf buf fmt nargs).bind fun r => some (r.value, r.state.out)

/-- The bytes that `wsource_read`, src/wchar/vfwscanf.c:22-46, produces in the end: those of the characters that `fgetwc` gives.
`fgetwc` gives Unicode scalar values only, so `wcrtomb` succeeds. -/
def produced (text : List Nat) : List Int := text.flatMap fun c => (Utf.wcrtomb c).2.map Int.ofNat

/-- The characters of `text` for which `fgetwc` has not been called when `left` bytes have not been asked for; `wsource_read` calls
it when its four-byte buffer is used up, vfwscanf.c:28-44. -/
def unread : List Nat → Nat → List Nat
  | [], _ => []
  | c :: t, left => if (produced (c :: t)).length ≤ left then c :: t else unread t left

/-- `vfwscanf`, src/wchar/vfwscanf.c:48-74: the value returned, the objects stored, and what is left for the next `fgetwc` on the
stream. `text` is what `fgetwc` gives before `WEOF`. The bytes read ahead, in the scanner (vfscanf.c:13-20) and in the buffer of
`struct WSource`, go out of scope. -/
def vfwscanf (text format : List Nat) (a : Bool) (nargs : Nat) : Option (Int × List (Nat × Obj) × List Nat) :=
  (transcode format a).bind fun
    | none => some (-1, [], text)
    | some fmt => (vfscanf (produced text) fmt nargs).bind fun r =>
        some (r.value, r.state.out, unread text r.state.s.input.length)

end Verif.Wscan
