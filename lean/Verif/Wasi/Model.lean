import Verif.Base

/-!
# Model of the WASI glue: error numbers, preopened directories, opening files

Paths and names are lists of bytes without the terminating NUL.
-/

namespace Verif.Wasi

/-! ## Error numbers -/

namespace E
/-! The constants of `include/errno.h:13-150` that the table uses. -/

def EPERM : Nat := 1
def ENOENT : Nat := 2
def ESRCH : Nat := 3
def EINTR : Nat := 4
def EIO : Nat := 5
def ENXIO : Nat := 6
def E2BIG : Nat := 7
def ENOEXEC : Nat := 8
def EBADF : Nat := 9
def ECHILD : Nat := 10
def EAGAIN : Nat := 11
def ENOMEM : Nat := 12
def EACCES : Nat := 13
def EFAULT : Nat := 14
def EBUSY : Nat := 16
def EEXIST : Nat := 17
def EXDEV : Nat := 18
def ENODEV : Nat := 19
def ENOTDIR : Nat := 20
def EISDIR : Nat := 21
def EINVAL : Nat := 22
def ENFILE : Nat := 23
def EMFILE : Nat := 24
def ENOTTY : Nat := 25
def ETXTBSY : Nat := 26
def EFBIG : Nat := 27
def ENOSPC : Nat := 28
def ESPIPE : Nat := 29
def EROFS : Nat := 30
def EMLINK : Nat := 31
def EPIPE : Nat := 32
def EDOM : Nat := 33
def ERANGE : Nat := 34
def EDEADLK : Nat := 35
def ENAMETOOLONG : Nat := 36
def ENOLCK : Nat := 37
def ENOSYS : Nat := 38
def ENOTEMPTY : Nat := 39
def ELOOP : Nat := 40
def ENOMSG : Nat := 42
def EIDRM : Nat := 43
def ENOLINK : Nat := 67
def EPROTO : Nat := 71
def EMULTIHOP : Nat := 72
def EBADMSG : Nat := 74
def EOVERFLOW : Nat := 75
def EILSEQ : Nat := 84
def ENOTSOCK : Nat := 88
def EDESTADDRREQ : Nat := 89
def EMSGSIZE : Nat := 90
def EPROTOTYPE : Nat := 91
def ENOPROTOOPT : Nat := 92
def EPROTONOSUPPORT : Nat := 93
def EOPNOTSUPP : Nat := 95
def EAFNOSUPPORT : Nat := 97
def EADDRINUSE : Nat := 98
def EADDRNOTAVAIL : Nat := 99
def ENETDOWN : Nat := 100
def ENETUNREACH : Nat := 101
def ENETRESET : Nat := 102
def ECONNABORTED : Nat := 103
def ECONNRESET : Nat := 104
def ENOBUFS : Nat := 105
def EISCONN : Nat := 106
def ENOTCONN : Nat := 107
def ETIMEDOUT : Nat := 110
def ECONNREFUSED : Nat := 111
def EHOSTUNREACH : Nat := 113
def EALREADY : Nat := 114
def EINPROGRESS : Nat := 115
def ESTALE : Nat := 116
def EDQUOT : Nat := 122
def ECANCELED : Nat := 125
def EOWNERDEAD : Nat := 130
def ENOTRECOVERABLE : Nat := 131
end E

open E in
/-- `wasi_to_posix` (`src/wasi/errno.h:16-94`). -/
def wasiToPosix : List Nat :=
  [0, E2BIG, EACCES, EADDRINUSE, EADDRNOTAVAIL, EAFNOSUPPORT,
   EAGAIN, EALREADY, EBADF, EBADMSG, EBUSY, ECANCELED,
   ECHILD, ECONNABORTED, ECONNREFUSED, ECONNRESET, EDEADLK, EDESTADDRREQ,
   EDOM, EDQUOT, EEXIST, EFAULT, EFBIG, EHOSTUNREACH,
   EIDRM, EILSEQ, EINPROGRESS, EINTR, EINVAL, EIO,
   EISCONN, EISDIR, ELOOP, EMFILE, EMLINK, EMSGSIZE,
   EMULTIHOP, ENAMETOOLONG, ENETDOWN, ENETRESET, ENETUNREACH, ENFILE,
   ENOBUFS, ENODEV, ENOENT, ENOEXEC, ENOLCK, ENOLINK,
   ENOMEM, ENOMSG, ENOPROTOOPT, ENOSPC, ENOSYS, ENOTCONN,
   ENOTDIR, ENOTEMPTY, ENOTRECOVERABLE, ENOTSOCK, EOPNOTSUPP, ENOTTY,
   ENXIO, EOVERFLOW, EOWNERDEAD, EPERM, EPIPE, EPROTO,
   EPROTONOSUPPORT, EPROTOTYPE, ERANGE, EROFS, ESPIPE, ESRCH,
   ESTALE, ETIMEDOUT, ETXTBSY, EXDEV, EACCES]

/-- The array access of `wasi_seterrno` (`src/wasi/errno.h:99-103`) and of the
other users of the table; `none` is an access outside the array. -/
def seterrno (e : Nat) : Option Nat := wasiToPosix[e]?

/-! ## Preopened directories -/

/-- What the host says about one descriptor (`fd_prestat_get` and
`fd_prestat_dir_name`): an error other than `BADF`, something that is not a
directory, or a directory with its name.  `short` says whether the host hands
out the start of a name longer than the buffer instead of failing. -/
inductive Prestat where
  | error
  | other
  | dir (name : List Nat) (short : Bool)

/-- `struct preopen` (`src/wasi/preopen.h:6-10`). -/
structure Entry where
  fd : Nat
  name : List Nat
deriving DecidableEq

/-- The loop that trims trailing slashes (`src/wasi/preopen.c:55-57`). -/
def trim (name : List Nat) : List Nat := (name.reverse.dropWhile (· = 47)).reverse

/-- The loop of `ensure_init` (`src/wasi/preopen.c:36-67`) from descriptor `fd`
on, with `n` entries and `used` bytes of the name pool taken; the descriptors
after the list answer `BADF`.  `pool_dup` is `src/wasi/preopen.c:17-29`. -/
def initLoop : List Prestat → Nat → Nat → Nat → List Entry
  | [], _, _, _ => []
  | p :: ps, fd, n, used =>
      if n < 16 then
        match p with
        | .error => initLoop ps (fd + 1) n used
        | .other => initLoop ps (fd + 1) n used
        | .dir name short =>
            if name.length > 256 ∧ short = false then initLoop ps (fd + 1) n used
            else
              let t := trim (name.take 256)
              if used + t.length + 1 > 1024 then []
              else ⟨fd, t⟩ :: initLoop ps (fd + 1) (n + 1) (used + t.length + 1)
      else []

/-- `ensure_init` (`src/wasi/preopen.c:31-70`) for a host with the given
descriptors from 3 on. -/
def table (ps : List Prestat) : List Entry := initLoop ps 3 0 0

/-- `strip_dotslash` (`src/wasi/preopen.c:72-80`). -/
def stripDotSlash : List Nat → List Nat
  | 46 :: 47 :: r => stripDotSlash (r.dropWhile (· = 47))
  | p => p
termination_by p => p.length
decreasing_by
  have := (List.dropWhile_suffix (p := fun x => decide (x = 47)) (l := r)).length_le
  simp only [List.length_cons]
  omega

/-- `is_universal` (`src/wasi/preopen.c:105-107`). -/
def universal (name : List Nat) : Bool := name = [] || name = [46] || name = [46, 47]

/-- One step of the search (`src/wasi/preopen.c:99-138`): the best entry so far
with the length that counts for it. -/
def consider (absolute : Bool) (p : List Nat) (best : Option (Entry × Nat)) (e : Entry) :
    Option (Entry × Nat) :=
  if universal e.name then
    if absolute then best
    else match best with
      | none => some (e, 0)
      | some b => some b
  else
    let prefixAbsolute := decide (0 < e.name.length ∧ e.name.head? = some 47)
    if absolute ≠ prefixAbsolute then best
    else if e.name.length > p.length then best
    else if p.take e.name.length ≠ e.name then best
    else if e.name.length < p.length ∧ p[e.name.length]? ≠ some 47 then best
    else match best with
      | none => some (e, e.name.length)
      | some (b, len) => if e.name.length > len then some (e, e.name.length) else some (b, len)

/-- `preopen_lookup` (`src/wasi/preopen.c:82-162`): `none` is -1 with `ENOENT`,
otherwise the descriptor and the rest of the path. -/
def lookup (es : List Entry) (path : List Nat) : Option (Nat × List Nat) :=
  if path = [] then none
  else
    let absolute := decide (path.head? = some 47)
    let p := if absolute then path else stripDotSlash path
    match es.foldl (consider absolute p) none with
    | none => none
    | some (e, len) =>
        let rel := (p.drop len).dropWhile (· = 47)
        some (e.fd, if rel = [] then [46] else rel)

/-! ## Opening files -/

/-- The loop of `modeflags_` (`src/stdio/modeflags.h:20-31`) over the rest of
the mode: `'+'`, `'x'` and `'e'`. -/
def modeLoop : List Nat → Nat → Nat → Nat
  | [], access, modifier => access ||| modifier
  | c :: cs, access, modifier =>
      if c = 43 then modeLoop cs 2 modifier
      else if c = 120 then modeLoop cs access (modifier ||| 0o200)
      else if c = 101 then modeLoop cs access (modifier ||| 0o2000000)
      else modeLoop cs access modifier

/-- `modeflags_` (`src/stdio/modeflags.h:3-34`) with the constants of
`include/fcntl.h:36-64`. -/
def modeflags : List Nat → Nat
  | 119 :: cs => modeLoop cs 1 (0o100 ||| 0o1000)
  | 97 :: cs => modeLoop cs 1 (0o100 ||| 0o2000)
  | 114 :: cs => modeLoop cs 0 0
  | cs => modeLoop cs 0 0

/-- `read_rights` (`src/stdio/_open.c:9-15`) with the bits of
`src/wasi/wasi.h:102-118`. -/
def readRights : Nat := 2 ^ 1 ||| 2 ^ 2 ||| 2 ^ 5 ||| 2 ^ 21 ||| 2 ^ 14 ||| 2 ^ 3

/-- `write_rights` (`src/stdio/_open.c:17-25`). -/
def writeRights : Nat :=
  2 ^ 6 ||| 2 ^ 2 ||| 2 ^ 5 ||| 2 ^ 21 ||| 2 ^ 22 ||| 2 ^ 4 ||| 2 ^ 0 ||| 2 ^ 3

/-- `__WASI_RIGHTS_PATH_CREATE_FILE` (`src/wasi/wasi.h:111`). -/
def createFile : Nat := 2 ^ 9

/-- The request that `open_path_` makes of `path_open`. -/
structure Request where
  dirfd : Nat
  path : List Nat
  lookupflags : Nat
  oflags : Nat
  rights : Nat
  fdflags : Nat
deriving DecidableEq

/-- `open_path_` (`src/stdio/_open.c:27-72`): `none` when it fails before
asking the host.  `O_ACCMODE` is `3 | O_PATH`. -/
def openPath (es : List Entry) (path : List Nat) (flags : Nat) : Option Request :=
  match lookup es path with
  | none => none
  | some (fd, rel) =>
      let acc := flags &&& (3 ||| 0o10000000)
      let rights? := if acc = 0 then some readRights
        else if acc = 1 then some writeRights
        else if acc = 2 then some (readRights ||| writeRights) else none
      match rights? with
      | none => none
      | some r =>
          let r := if flags &&& 0o100 ≠ 0 then r ||| createFile else r
          let o := if flags &&& 0o100 ≠ 0 then 1 else 0
          let o := if flags &&& 0o200 ≠ 0 then o ||| 4 else o
          let o := if flags &&& 0o1000 ≠ 0 then o ||| 8 else o
          let o := if flags &&& 0o200000 ≠ 0 then o ||| 2 else o
          let f := if flags &&& 0o2000 ≠ 0 then 1 else 0
          let f := if flags &&& 0o4000 ≠ 0 then f ||| 4 else f
          let f := if flags &&& 0o10000 ≠ 0 then f ||| 2 else f
          let f := if flags &&& 0o4010000 ≠ 0 then f ||| 16 else f
          some { dirfd := fd, path := rel
                 lookupflags := if flags &&& 0o400000 ≠ 0 then 0 else 1
                 oflags := o, rights := r, fdflags := f }

/-- `fopen` (`src/stdio/fopen.c:7-18`) up to the host call. -/
def fopen (es : List Entry) (path mode : List Nat) : Option Request :=
  openPath es path (modeflags mode)

end Verif.Wasi
