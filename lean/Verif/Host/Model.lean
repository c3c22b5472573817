import Verif.Wasi.Model
import Verif.Utf.Multi
import Verif.Time.FormatModel
import Verif.Float.Arith

/-!
# Model of the host's clocks and file attributes, time differences, locales and wide time strings

`src/time/{clock,time,timespec_get,difftime}.c`, `src/wasi/stat_convert.h`, `src/sys/stat/{stat,lstat,fstat}.c`,
`src/locale/setlocale.c`, `src/wchar/wcsftime.c`.

`time_t`, `clock_t` and `off_t` are 64-bit signed integers, `long` is a 32-bit signed one; conversions to them wrap (`s64`, `s32`). A C string
argument is the list of its bytes before the terminator.
-/

namespace Verif.Host

open Verif.Float

/-! ## Clocks -/

/-- The host's answer to `clock_time_get`, by clock: an error or the time in nanoseconds, an unsigned 64-bit number. -/
def Clock := Nat → Except Nat Nat

/-- `clock`, src/time/clock.c:13-26 with `CLOCKS_PER_SEC` = 1000000 (include/time.h:27); `none` is signed overflow. -/
def clock (h : Clock) : Option Int :=
  match h 2 with
  | .error _ => some (-1)
  | .ok now =>
    let secs := s64 (now / 1000000000)
    let nsec := s32 (now % 1000000000)
    (chk64 (secs * 1000000)).bind fun a => chk64 (a + nsec.tdiv 1000)

/-- `timespec_get`, src/time/timespec_get.c:8-20: the result and the fields stored. -/
def timespecGet (h : Clock) (base : Int) : Int × Option (Int × Int) :=
  if base ≠ 1 then (0, none)
  else match h 0 with
    | .error _ => (0, none)
    | .ok now => (base, some (s64 (now / 1000000000), s32 (now % 1000000000)))

/-- `time`, src/time/time.c:9-21: the result, which is also what is stored if the argument is not null, or -1 and the error
number; the outer `none` is an access outside the table of error numbers. -/
def time (h : Clock) : Option (Int × Option Nat) :=
  match h 0 with
  | .error e => (Wasi.seterrno e).map fun n => (-1, some n)
  | .ok now => some (s64 (now / 1000000000), none)

/-! ## Attributes of files -/

/-- `__wasi_filestat_t`, src/wasi/wasi.h:129-138. -/
structure FileStat where
  dev : Nat
  ino : Nat
  filetype : Nat
  nlink : Nat
  size : Nat
  atim : Nat
  mtim : Nat
  ctim : Nat

/-- `struct stat`, include/sys/stat.h:17-32. -/
structure Stat where
  dev : Nat
  ino : Nat
  mode : Nat
  nlink : Nat
  uid : Nat
  gid : Nat
  rdev : Nat
  size : Int
  blksize : Int
  blocks : Int
  atim : Int × Int
  mtim : Int × Int
  ctim : Int × Int
deriving DecidableEq

/-- The assignments to the fields of a `struct timespec`, src/wasi/stat_convert.h:18-23. -/
def timespec (t : Nat) : Int × Int := (s64 (t / 1000000000), s32 (t % 1000000000))

/-- `wasi_fill_stat`, src/wasi/stat_convert.h:7-35, with the constants of include/sys/stat.h:38-45. -/
def fillStat (src : FileStat) : Stat where
  dev := src.dev
  ino := src.ino
  nlink := src.nlink % 2 ^ 32
  uid := 0
  gid := 0
  rdev := 0
  size := s64 src.size
  blksize := 4096
  blocks := s64 ((src.size + 511) % 2 ^ 64 / 512)
  atim := timespec src.atim
  mtim := timespec src.mtim
  ctim := timespec src.ctim
  mode :=
    if src.filetype = 4 then 0o100000 ||| 0o644
    else if src.filetype = 3 then 0o040000 ||| 0o755
    else if src.filetype = 7 then 0o120000 ||| 0o777
    else if src.filetype = 2 then 0o020000 ||| 0o666
    else if src.filetype = 1 then 0o060000 ||| 0o666
    else if src.filetype = 5 ∨ src.filetype = 6 then 0o140000 ||| 0o666
    else 0

/-- The host's file system: attributes of a descriptor, and of a path relative to a directory with lookup flags. -/
structure Files where
  fd : Nat → Except Nat FileStat
  path : Nat → Nat → List Nat → Except Nat FileStat

/-- What a call does: success with the structure stored, or -1 with an error number. -/
inductive Reply where
  | ok (s : Stat)
  | fail (errno : Nat)
deriving DecidableEq

/-- The last lines of the three functions; `none` is an access outside the table of error numbers. -/
def report : Except Nat FileStat → Option Reply
  | .error e => (Wasi.seterrno e).map .fail
  | .ok fs => some (.ok (fillStat fs))

/-- `fstat`, src/sys/stat/fstat.c:6-14. -/
def fstat (h : Files) (fd : Int) : Option Reply := report (h.fd (u32 fd))

/-- `stat` (src/sys/stat/stat.c:7-23, flag 1) and `lstat` (src/sys/stat/lstat.c:7-23, flag 0). -/
def statAt (flags : Nat) (h : Files) (es : List Wasi.Entry) (path : List Nat) : Option Reply :=
  match Wasi.lookup es path with
  | none => some (.fail Wasi.E.ENOENT)
  | some (fd, rel) => report (h.path fd flags rel)

def stat := statAt 1
def lstat := statAt 0

/-! ## Differences of times -/

/-- `difftime`, src/time/difftime.c:3-6. -/
def difftime (a b : Int) : Nat := b64.sub (b64.ofInt a) (b64.ofInt b)

/-! ## Locales -/

/-- `setlocale`, src/locale/setlocale.c:10-20: the string returned; `none` is a null pointer. -/
def setlocale (category : Int) (locale : Option (List Nat)) : Option (List Nat) :=
  if category < 0 ∨ category > 5 then none
  else match locale with
    | none => some [67]
    | some s => if s = [] ∨ s = [67] ∨ s = [80, 79, 83, 73, 88] then some [67] else none

/-! ## Wide time strings -/

/-- Stores of consecutive elements. -/
def store (m : Nat → Nat) (l : List Nat) : Nat → Nat := fun i => l.getD i (m i)

/-- `wcsftime`, src/wchar/wcsftime.c:6-43. `s` is the array at `s`, `format` the elements from `format` on, `a1` and `a2` say
whether the calls of `malloc` succeed and `junk` is what the second block contains. The result is the value returned and the
array; `none` is undefined behaviour. -/
def wcsftime (s : Nat → Nat) (maxsize : Nat) (format : List Nat) (tm : Time.Tm) (a1 a2 : Bool) (junk : Nat → Char) :
    Option (Nat × (Nat → Nat)) :=
  if maxsize = 0 then some (0, s)
  else do
    let n ← Utf.wcsrtombsCount format 0
    if n = Utf.ERR then return (0, s)
    else if a1 = false then return (0, s)
    else
      let o ← Utf.wcsrtombs (n + 1) format
      let fmt := o.dst.takeWhile (· ≠ 0)
      let bcap := maxsize * 4 % 2 ^ 32
      if a2 = false then return (0, s)
      else
        let (bn, bbuf) ← Time.strftime junk bcap (fmt.map Char.ofNat) tm
        if bn = 0 then return (0, s)
        else
          let (wn, out) ← Utf.mbstowcs maxsize ((List.range bcap).map fun i => (bbuf i).toNat)
          let s := store s out
          if wn = Utf.ERR ∨ wn ≥ maxsize then return (0, fun i => if i = 0 then 0 else s i)
          else return (wn, s)

end Verif.Host
