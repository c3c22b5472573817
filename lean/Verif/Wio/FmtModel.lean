import Verif.Wio.Model
import Verif.Printf.Model

/-!
# Model of formatted wide output

`src/wchar/vfwprintf.c` and `src/wchar/vswprintf.c`, on top of the model of `vfprintf` (`Verif/Printf/Model.lean`).
`conv` is `vfprintf` as a function of the format: `Printf.vfprintf L m · args`. A wide string is the list of its
elements from the first on, given by their 32-bit patterns, with whatever follows the terminator. `alloc n` tells
whether `malloc(n)` succeeds. The wrappers `fwprintf`, `wprintf`, `swprintf` and `vwprintf` only pass on the argument list.
-/

namespace Verif.Wio

open Printf (Out)

/-- vfwprintf.c:22-34: the format of the call of `vfprintf`, or `some none` when -1 is returned instead. -/
def transcode (alloc : Nat → Bool) (ws : List Nat) : Option (Option (List Nat)) :=
  match Utf.wcsrtombsCount ws 0 with
  | none => none
  | some bytes =>
    if bytes = Utf.ERR then some none
    else if alloc (bytes + 1) then
      match Utf.wcsrtombs (bytes + 1) ws with
      | none => none
      | some o => if 0 ∈ o.dst then some (some (o.dst.takeWhile (· ≠ 0))) else none
    else some none

/-- `vfwprintf`, vfwprintf.c:22-38, on a stream whose `write` is `W`. -/
def vfwprintf {σ : Type} (alloc : Nat → Bool) (conv : List Nat → Option Out) (W : σ → List Nat → Nat × σ) (ws : List Nat)
    (st : σ) : Option (Int × σ) :=
  match transcode alloc ws with
  | none => none
  | some none => some (-1, st)
  | some (some fmt) => (conv fmt).map fun o => Printf.emit W o.chunks o.ret st

/-- `vfwprintf`, vfwprintf.c:17-39, on an opened file. -/
def fwprintf {σ : Type} (alloc : Nat → Bool) (conv : List Nat → Option Out) (W : Stdio.Writer σ) (ws : List Nat)
    (f : WFile σ) : Option (Int × WFile σ) :=
  let f := widen f
  (vfwprintf alloc conv (Stdio.stdioWrite W) ws f.file).map fun r => (r.1, { f with file := r.2 })

/-- `struct WSink`, vswprintf.c:12-19: memory, `n` and `st`. -/
structure WSink where
  mem : Wide.Mem
  n : Nat
  st : Nat

/-- The loop of `wsink_write`, vswprintf.c:25-34: whether it ran to the end. -/
def wsinkLoop (buf cap : Nat) : List Nat → WSink → Bool × WSink
  | [], s => (true, s)
  | b :: bs, s =>
    let o := Utf.mbrtowc s.st [b]
    let s := { s with st := o.state }
    if o.ret = Utf.ERR then (false, s)
    else if o.ret = Utf.INC then wsinkLoop buf cap bs s
    else if s.n + 1 < cap then
      wsinkLoop buf cap bs { s with mem := Wide.put s.mem (buf + s.n) (wchar (o.wc.getD 0)), n := s.n + 1 }
    else wsinkLoop buf cap bs s

/-- `wsink_write`, vswprintf.c:21-36. -/
def wsinkWrite (buf cap : Nat) (s : WSink) (bs : List Nat) : Nat × WSink :=
  match wsinkLoop buf cap bs s with
  | (ok, s) => (if ok then bs.length else 0, s)

/-- `vswprintf`, vswprintf.c:38-57. -/
def vswprintf (alloc : Nat → Bool) (conv : List Nat → Option Out) (m : Wide.Mem) (buf cap : Nat) (ws : List Nat) :
    Option (Int × Wide.Mem) :=
  if cap = 0 then some (-1, m)
  else
    (vfwprintf alloc conv (wsinkWrite buf cap) ws ⟨m, 0, 0⟩).map fun r =>
      if r.1 < 0 then (-1, Wide.put r.2.mem buf 0)
      else (s32 (r.2.n % 2 ^ 32), Wide.put r.2.mem (buf + r.2.n) 0)

end Verif.Wio
