import Verif.Base

/-!
# Model of the byte streams of stdio

A stream is the structure of `src/stdio/FILE.h` without its unused buffer
pointers (`base` is never set by `FILE_`, `src/stdio/FILE_.h:8-15`, so
`flush_`, `src/stdio/flush.h:4-14`, does nothing).

The host behind `__wasi_fd_read` and `__wasi_fd_write` is an arbitrary state
machine: any state type `σ`, any reply to any request.  Only the bookkeeping
that the library itself does is fixed here.  `errno` is left out except in the
host replies.
-/

namespace Verif.Stdio

/-- `EOF` (`include/stdio.h`). -/
def EOF : Int := -1

/-- A reply to `fd_read`: an error number, or the bytes delivered
(`src/stdio/_read.c:7-18`, `nread` is their number). -/
inductive Reply where
  | fail (e : Nat)
  | give (bs : List Nat)
deriving DecidableEq

/-- A host file that can be read: state `σ`, and for each request size the
reply and the next state. -/
abbrev Reader (σ : Type) := σ → Nat → Reply × σ

/-- A host file that can be written: for the bytes offered, `Sum.inl` error
number or `Sum.inr` number of bytes accepted (`src/stdio/_write.c:7-18`). -/
abbrev Writer (σ : Type) := σ → List Nat → (Nat ⊕ Nat) × σ

/-- `struct FILE` (`src/stdio/FILE.h`): the bits of `state`, the push-back
cache of 16 bytes with `avail` of them in use at its end, and the host. -/
structure File (σ : Type) where
  eof : Bool
  err : Bool
  app : Bool
  avail : Nat
  cache : Nat → Nat
  host : σ

/-- `__stdio_read` (`src/stdio/_read.c:5-19`). -/
def stdioRead {σ : Type} (R : Reader σ) (f : File σ) (size : Nat) : List Nat × File σ :=
  match R f.host size with
  | (.fail _, h) => ([], { f with err := true, host := h })
  | (.give bs, h) =>
      (bs, { f with eof := f.eof || decide (bs.length < size), host := h })

/-- `getc_` (`src/stdio/getc.h:7-14`), also `getc`, `fgetc`
(`src/stdio/getc.c:3-8`).  A host that reports one byte read has stored it. -/
def getc {σ : Type} (R : Reader σ) (f : File σ) : Int × File σ :=
  if f.avail ≠ 0 then
    (Int.ofNat (f.cache (16 - f.avail)), { f with avail := f.avail - 1 })
  else
    match stdioRead R f 1 with
    | (b :: _, f') => (Int.ofNat b, f')
    | ([], f') => (EOF, f')

/-- `ungetc` (`src/stdio/ungetc.c:4-14`).  The store into `unsigned char`
reduces modulo 256; the value returned is `c` as passed. -/
def ungetc {σ : Type} (c : Int) (f : File σ) : Int × File σ :=
  if f.avail < 16 ∧ c ≠ EOF then
    (c, { f with
      avail := f.avail + 1
      cache := fun i => if i = 16 - (f.avail + 1) then (c % 256).toNat else f.cache i
      eof := false })
  else (EOF, f)

/-- The loop of `fgets` (`src/stdio/fgets.c:9-20`) from `s[i]`, with
`k = n - 1 - i` characters of room.  The result is the final `i`, or `none`
when the function returns a null pointer from within the loop. -/
def fgetsLoop {σ : Type} (R : Reader σ) (s : Nat) :
    Nat → Nat → (Nat → Nat) → File σ → Option Nat × (Nat → Nat) × File σ
  | 0, i, m, f => (some i, m, f)
  | k + 1, i, m, f =>
      match getc R f with
      | (c, f') =>
        if c = EOF then (if i = 0 then none else some i, m, f')
        else
          let m' := fun a => if a = s + i then (c % 256).toNat else m a
          if c = 10 then (some (i + 1), m', f')
          else fgetsLoop R s k (i + 1) m' f'

/-- `fgets` (`src/stdio/fgets.c:4-24`): whether the result is `s`, the memory
and the stream afterwards. -/
def fgets {σ : Type} (R : Reader σ) (m : Nat → Nat) (s : Nat) (n : Int) (f : File σ) :
    Bool × (Nat → Nat) × File σ :=
  if n ≤ 0 then (false, m, f)
  else
    match fgetsLoop R s (n - 1).toNat 0 m f with
    | (none, m', f') => (false, m', f')
    | (some i, m', f') => (true, fun a => if a = s + i then 0 else m' a, f')

/-- The line buffer of `getdelim`: `*cap` and the bytes of `*line`. -/
structure Line where
  cap : Nat
  data : Nat → Nat

/-- How a call of `getdelim` ends. -/
inductive Got (σ : Type) where
  /-- A store outside the buffer. -/
  | fault
  /-- The loop did not end within the steps allowed. -/
  | more
  /-- Returns -1. -/
  | minus (l : Line) (f : File σ)
  /-- Returns the length. -/
  | line (n : Nat) (l : Line) (f : File σ)

/-- The terminating store and return of `getdelim` (`src/stdio/getdelim.c:45-46`). -/
def finish {σ : Type} (n : Nat) (l : Line) (f : File σ) : Got σ :=
  if n < l.cap then .line n { l with data := fun i => if i = n then 0 else l.data i } f
  else .fault

/-- The loop of `getdelim` (`src/stdio/getdelim.c:22-43`), at most `fuel`
characters.  `grow size` says whether `realloc` to `size` bytes succeeds;
it keeps the old contents.  The doubled size is reduced as `size_t`. -/
def getdelimLoop {σ : Type} (R : Reader σ) (grow : Nat → Bool) (delim : Int) :
    Nat → Nat → Line → File σ → Got σ
  | 0, _, _, _ => .more
  | fuel + 1, n, l, f =>
      match getc R f with
      | (c, f') =>
        if c = EOF then if n = 0 then .minus l f' else finish n l f'
        else
          let need := l.cap * 2 % 2 ^ 32
          if n + 1 ≥ l.cap ∧ grow need = false then .minus l f'
          else
            let l' := if n + 1 ≥ l.cap then { l with cap := need } else l
            if n < l'.cap then
              let l'' := { l' with data := fun i => if i = n then (c % 256).toNat else l'.data i }
              if c = delim then finish (n + 1) l'' f'
              else getdelimLoop R grow delim fuel (n + 1) l'' f'
            else .fault

/-- `getdelim` (`src/stdio/getdelim.c:6-47`) with non-null `line` and `cap`;
`null` says whether `*line` is a null pointer.  `getline`
(`src/stdio/getline.c:3-6`) passes `'\n'`. -/
def getdelim {σ : Type} (R : Reader σ) (grow : Nat → Bool) (delim : Int) (fuel : Nat)
    (null : Bool) (l : Line) (f : File σ) : Got σ :=
  if null = true ∨ l.cap = 0 then
    if grow 128 then getdelimLoop R grow delim fuel 0 { l with cap := 128 } f
    else .minus l f
  else getdelimLoop R grow delim fuel 0 l f

/-- `wrapper_` (`src/stdio/fread.c:4-12`): the bytes stored from `buffer` on. -/
def freadBytes {σ : Type} (R : Reader σ) (size : Nat) (f : File σ) : List Nat × File σ :=
  let hit := if f.avail < size then f.avail else size
  let missed := size - hit
  let taken := (List.range hit).map fun i => f.cache (16 - f.avail + i)
  let f' := { f with avail := f.avail - hit }
  if missed ≠ 0 then
    match stdioRead R f' missed with
    | (bs, f'') => (taken ++ bs, f'')
  else (taken, f')

/-- `fread` (`src/stdio/fread.c:14-17`): the items returned, the bytes stored,
the stream.  `none` is the division by zero. -/
def fread {σ : Type} (R : Reader σ) (size count : Nat) (f : File σ) :
    Option (Nat × List Nat × File σ) :=
  match freadBytes R (size * count % 2 ^ 32) f with
  | (bs, f') => if size = 0 then none else some (bs.length / size, bs, f')

/-- `__stdio_write` (`src/stdio/_write.c:5-19`). -/
def stdioWrite {σ : Type} (W : Writer σ) (f : File σ) (bs : List Nat) : Nat × File σ :=
  match W f.host bs with
  | (.inl _, h) => (0, { f with err := true, host := h })
  | (.inr n, h) => (n, { f with err := f.err || decide (n < bs.length), host := h })

/-- `fwrite` (`src/stdio/fwrite.c:3-6`) of the items in `buf`, of which the
first `size * count` bytes are used. -/
def fwrite {σ : Type} (W : Writer σ) (buf : List Nat) (size count : Nat) (f : File σ) :
    Option (Nat × File σ) :=
  match stdioWrite W f (buf.take (size * count % 2 ^ 32)) with
  | (n, f') => if size = 0 then none else some (n / size, f')

/-- `putc_` (`src/stdio/putc.h:7-12`). -/
def putc {σ : Type} (W : Writer σ) (c : Int) (f : File σ) : Int × File σ :=
  match stdioWrite W f [(c % 256).toNat] with
  | (n, f') => (if n = 1 then c % 256 else EOF, f')

/-- `fputs` (`src/stdio/fputs.c:4-9`) of a string with contents `bs`. -/
def fputs {σ : Type} (W : Writer σ) (bs : List Nat) (f : File σ) : Int × File σ :=
  match stdioWrite W f bs with
  | (n, f') => (if n = bs.length then 0 else -1, f')

/-- `puts` (`src/stdio/puts.c:6-11`) of a string with contents `bs`. -/
def puts {σ : Type} (W : Writer σ) (bs : List Nat) (f : File σ) : Int × File σ :=
  putc W 10 (stdioWrite W f bs).2

/-- `clearerr` (`src/stdio/clearerr.c:3-6`): the whole state word is zeroed. -/
def clearerr {σ : Type} (f : File σ) : File σ :=
  { f with eof := false, err := false, app := false }

/-- A host file that can be repositioned: offset and whence (0 start, 1 current
position, 2 end) to an error number or the new position
(`src/stdio/_seek.c:8-10`). -/
abbrev Seeker (σ : Type) := σ → Int → Nat → (Nat ⊕ Nat) × σ

/-- `__stdio_seek` (`src/stdio/_seek.c:6-24`), with the branch for a 32-bit
`long`. -/
def stdioSeek {σ : Type} (S : Seeker σ) (f : File σ) (off : Int) (origin : Nat) : Int × File σ :=
  match S f.host off origin with
  | (.inl _, h) => (-1, { f with host := h })
  | (.inr n, h) =>
      if n > 0x7FFFFFFF then (-1, { f with host := h })
      else ((n : Nat), { f with eof := false, host := h })

/-- `__ftello` (`src/stdio/ftell.c:4-10`); `base` is null, so `buffered` is 0.
`ftell` (`src/stdio/ftell.c:12-15`) returns the same number: it fits `long`
because the position does. -/
def ftell {σ : Type} (S : Seeker σ) (f : File σ) : Int × File σ :=
  match stdioSeek S f 0 (if f.app then 2 else 1) with
  | (p, f') => (if p = -1 then -1 else p - f'.avail, f')

/-- `__fseeko` (`src/stdio/fseek.c:4-12`): 0 for success, 1 for failure. -/
def fseek {σ : Type} (S : Seeker σ) (f : File σ) (off : Int) (origin : Nat) : Int × File σ :=
  let off' := if origin = 1 then off - f.avail else off
  match stdioSeek S { f with avail := 0 } off' origin with
  | (p, f') => (if p = -1 then 1 else 0, f')

/-- `rewind` (`src/stdio/rewind.c:4-8`). -/
def rewind {σ : Type} (S : Seeker σ) (f : File σ) : File σ :=
  { (fseek S f 0 0).2 with err := false }

end Verif.Stdio
