import Verif.Printf.FloatModel

/-!
# Model of formatted output

`src/stdio/vfprintf.c` (with `Verif.Printf.Parts` and `Verif.Printf.FloatModel`) and `src/stdio/vsnprintf.c`,
`src/stdio/vsprintf.c`, `src/stdio/vasprintf.c`.

No conversion looks at what became of earlier writes except to stop at the first failure, so a call is
modelled in two steps: `vfprintf` computes the writes that are made as long as none fails, with the value
returned in the end, and `emit` makes them.

* Formats and chunks are lists of bytes; the format ends with the list.
* An argument is an integer; `va_arg` at a type reduces it to that type. Pointers are addresses, floating-point
  numbers are bit patterns. Taking an argument that is not there is `none`.
* `none` also stands for signed overflow, a read outside memory and a read of an array element that has not
  been written.
* Stores outside a scratch array are recorded in `fault`; below a digit buffer they do nothing, behind an array
  of limbs they are made as if the array were longer.
* `%s` reads its string from the memory at the time of the call: what the call itself writes is assumed
  not to overlap it.
-/

namespace Verif.Printf

open Str (Mem)

/-- `convert_`, vfprintf.c:1161-1192, with the arguments left. -/
def convert (L : Nat) (m : Mem) (sp : Opts) (count format : Nat) (args : List Int) : Option (Out × List Int) :=
  if format ∈ [100, 105, 111, 117, 120, 88, 99, 115, 112, 110] then
    match args with
    | [] => none
    | v :: args =>
      (if format = 100 ∨ format = 105 then convertI sp (popSigned sp.length v)
       else if format = 111 then convertO sp (popUnsigned sp.length v)
       else if format = 117 then convertU sp (popUnsigned sp.length v)
       else if format = 120 ∨ format = 88 then convertX sp format (popUnsigned sp.length v)
       else if format = 99 then some (convertC sp v)
       else if format = 115 then convertS L m sp v
       else if format = 112 then some (convertP v)
       else some (storeN sp count v)).map (·, args)
  else if format = 102 ∨ format = 70 then convertF sp (format &&& 0x20) args
  else if format = 97 ∨ format = 65 then convertA sp (format &&& 0x20) args
  else some (⟨false, [], -2, []⟩, args)

/-- The flag loop of `parse_`, vfprintf.c:1196-1199. -/
def parseFlags : List Nat → Nat → Nat × List Nat
  | [], flags => (flags, [])
  | c :: cs, flags => if flag c = 0 then (flags, c :: cs) else parseFlags cs (flags ||| flag c)

/-- vfprintf.c:1204-1207. -/
def fixWidth (flags : Nat) (width : Int) : Option (Nat × Int) :=
  if width < 0 then (chk32 (-width)).map (flags ||| 2 ^ 13, ·) else some (flags, width)

/-- vfprintf.c:1209-1212. -/
def parsePrecision (s : List Nat) (args : List Int) : Option (Int × List Nat × List Int) :=
  if s.head? = some 46 then field s.tail args else some (-1, s, args)

/-- `parse_`, vfprintf.c:1194-1219. -/
def parse (s : List Nat) (args : List Int) : Option (Opts × List Nat × List Int) :=
  match parseFlags s 0 with
  | (flags, s) =>
    match field s args with
    | none => none
    | some (width, s, args) =>
      match fixWidth flags width with
      | none => none
      | some (flags, width) =>
        match parsePrecision s args with
        | none => none
        | some (precision, s, args) =>
          some (⟨flags, width, precision, lengthCode s⟩, s.drop (lengthCode s % 4), args)

/-- A write made before the rest. -/
def Out.after (fault : Bool) (chunks : List (List Nat)) (stores : List (Nat × Nat × Nat)) (o : Out) : Out :=
  ⟨fault || o.fault, chunks ++ o.chunks, o.ret, stores ++ o.stores⟩

/-- The loop of `vfprintf`, vfprintf.c:1225-1252: `lit` holds the characters from `format` to `s`. -/
def vloop (L : Nat) (m : Mem) : Nat → List Nat → List Nat → Nat → List Int → Option Out
  | 0, _, _, _, _ => none
  | _ + 1, [], lit, count, _ => some ⟨false, [lit], s32 ((lit.length + count) % 2 ^ 32), []⟩
  | fuel + 1, c :: cs, lit, count, args =>
    if c = 37 then
      if cs.head? = some 37 then
        (vloop L m fuel cs.tail [] ((count + (lit.length + 1)) % 2 ^ 32) args).map (Out.after false [lit ++ [37]] [])
      else
        match parse cs args with
        | none => none
        | some (sp, rest, args) =>
          match convert L m sp ((count + lit.length) % 2 ^ 32) (rest.headD 0) args with
          | none => none
          | some (o, args) =>
            if o.ret < 0 then some ⟨o.fault, lit :: o.chunks, o.ret, o.stores⟩
            else
              (vloop L m fuel rest.tail [] (((count + lit.length) % 2 ^ 32 + u32 o.ret) % 2 ^ 32) args).map
                (Out.after o.fault (lit :: o.chunks) o.stores)
    else vloop L m fuel cs (lit ++ [c]) count args

/-- `vfprintf`, vfprintf.c:1221-1253: the writes made while none fails and the value returned then. -/
def vfprintf (L : Nat) (m : Mem) (format : List Nat) (args : List Int) : Option Out :=
  vloop L m (format.length + 1) format [] 0 args

/-- The writes themselves (`write_`, `put_`, `TRY`; vfprintf.c:16, 68-76): a write that takes another number of
bytes than it was offered ends the call with -1. `W` is `stream->write`. -/
def emit {σ : Type} (W : σ → List Nat → Nat × σ) : List (List Nat) → Int → σ → Int × σ
  | [], ret, st => (ret, st)
  | c :: cs, ret, st =>
    match W st c with
    | (n, st) => if n ≠ c.length then (-1, st) else emit W cs ret st

/-- The stream of `vsnprintf`, vsnprintf.c:30-34: memory, `ptr`, `end` and whether `write` is `noop_`. -/
structure Sink where
  mem : Mem
  ptr : Nat
  end_ : Nat
  noop : Bool

/-- `memcpy` to `d`; the source does not overlap. -/
def store (m : Mem) (d : Nat) (bs : List Nat) : Mem :=
  fun a => if d ≤ a ∧ a < d + bs.length then bs.getD (a - d) 0 else m a

/-- `noop_` and `write_`, vsnprintf.c:6-26. -/
def sinkWrite (s : Sink) (bs : List Nat) : Nat × Sink :=
  if s.noop then (bs.length, s)
  else if bs.length < s.end_ - s.ptr then
    (bs.length, { s with mem := store s.mem s.ptr bs, ptr := s.ptr + bs.length })
  else
    (bs.length, { s with mem := store s.mem s.ptr (bs.take (s.end_ - s.ptr)), ptr := s.end_, noop := true })

/-- `vsnprintf`, vsnprintf.c:28-42, for a call whose conversions do `o`: the result and the memory. -/
def vsnprintf (mem : Mem) (buffer size : Nat) (o : Out) : Int × Mem :=
  match emit sinkWrite o.chunks o.ret ⟨mem, buffer, if size ≠ 0 then buffer + (size - 1) else 0, size = 0⟩ with
  | (status, s) => (status, if size ≠ 0 then store s.mem s.ptr [0] else s.mem)

/-- `write_`, vsprintf.c:6-11. -/
def spillWrite (s : Mem × Nat) (bs : List Nat) : Nat × Mem × Nat :=
  (bs.length, store s.1 s.2 bs, s.2 + bs.length)

/-- `vsprintf`, vsprintf.c:13-23. -/
def vsprintf (mem : Mem) (buffer : Nat) (o : Out) : Int × Mem :=
  match emit spillWrite o.chunks o.ret (mem, buffer) with
  | (status, s) => (status, store s.1 s.2 [0])

/-- `vasprintf`, vasprintf.c:5-32: the result, `*out` and the memory. `alloc` is `malloc`. Both passes format
the same arguments, so both do `o`. -/
def vasprintf (alloc : Nat → Option Nat) (mem : Mem) (o : Out) : Int × Option Nat × Mem :=
  match vsnprintf mem 0 0 o with
  | (n, mem) =>
    if n < 0 then (-1, none, mem)
    else
      match alloc (n.toNat + 1) with
      | none => (-1, none, mem)
      | some buf =>
        match vsnprintf mem buf (n.toNat + 1) o with
        | (r, mem) => if r < 0 then (-1, none, mem) else (r, some buf, mem)

/-- `vfprintf` on a stream of the library (`stream->write` is `__stdio_write`). -/
def fprintf {σ : Type} (W : Stdio.Writer σ) (o : Out) (f : Stdio.File σ) : Int × Stdio.File σ :=
  emit (Stdio.stdioWrite W) o.chunks o.ret f

end Verif.Printf
