import Verif.Wasi.Model
import Verif.Wio.Model

/-!
# Model of the life of streams, of file positions, of removing and renaming files, and of `strerror`

`src/stdio/{fopen.c, fclose.c, freopen.c, _close.c, _open.c, fgetpos.c, fsetpos.c, remove.c, rename.c}` and
`src/string/strerror.c`.  The host is an arbitrary state machine.  `flush_` (`src/stdio/flush.h:4-14`) does nothing since
`base` is null.  Storage is a table of the `FILE` objects by address; `malloc` is a parameter, and `free` of anything that did not
come from `malloc` is undefined.
-/

namespace Verif.Life
open Verif.Wasi

/-- The calls of the host, each with its error number, 0 for success. -/
structure Host (σ : Type) where
  /-- `path_open`: error and descriptor. -/
  pathOpen : σ → Request → (Nat × Nat) × σ
  fdClose : σ → Nat → Nat × σ
  /-- `fd_fdstat_set_flags`. -/
  setFlags : σ → Nat → Nat → Nat × σ
  /-- `path_unlink_file`. -/
  unlink : σ → Nat → List Nat → Nat × σ
  /-- `path_remove_directory`. -/
  rmdir : σ → Nat → List Nat → Nat × σ
  /-- `path_rename`. -/
  rename : σ → Nat → List Nat → Nat → List Nat → Nat × σ

/-- `struct FILE`, src/stdio/FILE.h:10-28, without the function pointers, the unused buffer and the contents of the caches. -/
structure Stream where
  fd : Nat
  eof : Bool
  err : Bool
  app : Bool
  wpush : Bool
  avail : Nat
  orient : Int
deriving DecidableEq

/-- The initializer `FILE_`, src/stdio/FILE_.h:8-15; `app` is the only bit that `.state` is ever given. -/
def FILE_ (fd : Nat) (app : Bool) : Stream := ⟨fd, false, false, app, false, 0, 0⟩

/-- The program's world: the host, `errno`, the `FILE` objects obtained from `malloc` and not yet freed, and what each address
holds. -/
structure World (σ : Type) where
  host : σ
  errno : Nat
  heap : List Nat
  file : Nat → Option Stream

/-- A store of a whole `FILE`. -/
def World.store {σ : Type} (w : World σ) (p : Nat) (s : Option Stream) : World σ :=
  { w with file := fun q => if q = p then s else w.file q }

/-- `free`: undefined unless the object is allocated. -/
def free {σ : Type} (p : Nat) (w : World σ) : Option (World σ) :=
  if p ∈ w.heap then some { w.store p none with heap := w.heap.erase p } else none

/-- `__stdio_close`, src/stdio/_close.c:5-9 -/
def stdioClose {σ : Type} (H : Host σ) (fd : Nat) (w : World σ) : Option (Int × World σ) :=
  match H.fdClose w.host fd with
  | (e, h) =>
    if e = 0 then some (0, { w with host := h })
    else (seterrno e).map fun n => (-1, { w with host := h, errno := n })

/-- `fclose`, src/stdio/fclose.c:8-20 -/
def fclose {σ : Type} (H : Host σ) (p : Nat) (w : World σ) : Option (Int × World σ) := do
  let s ← w.file p
  let (status, w) ← stdioClose H s.fd w
  let w ← free p w
  if 0 ≤ status then some (0, w) else some (Stdio.EOF, { w with errno := (-status).toNat })

/-- `open_path_`, src/stdio/_open.c:27-75 -/
def openFd {σ : Type} (H : Host σ) (es : List Entry) (path : List Nat) (flags : Nat) (w : World σ) : Option (Int × World σ) :=
  match lookup es path with
  | none => some (-1, { w with errno := E.ENOENT })
  | some _ =>
    match openPath es path flags with
    | none => some (-1, { w with errno := E.EINVAL })
    | some r =>
      match H.pathOpen w.host r with
      | ((e, fd), h) =>
        if e = 0 then some (s32 fd, { w with host := h })
        else (seterrno e).map fun n => (-1, { w with host := h, errno := n })

/-- `fopen`, src/stdio/fopen.c:7-18: a null pointer or an address.  The result of `malloc` is not checked. -/
def fopen {σ : Type} (H : Host σ) (malloc : List Nat → Option Nat) (es : List Entry) (path mode : List Nat) (w : World σ) :
    Option (Option Nat × World σ) := do
  let flags := modeflags mode
  let (fd, w) ← openFd H es path flags w
  if fd < 0 then some (none, w)
  else
    let p ← malloc w.heap
    some (some p, { w.store p (some (FILE_ fd.toNat (flags &&& 0o2000 ≠ 0))) with heap := p :: w.heap })

/-- `freopen`, src/stdio/freopen.c:10-43.  Of the flags that matter with a null `path` a mode gives only `O_APPEND`. -/
def freopen {σ : Type} (H : Host σ) (es : List Entry) (path : Option (List Nat)) (mode : List Nat) (p : Nat) (w : World σ) :
    Option (Option Nat × World σ) := do
  let flags := modeflags mode
  let s ← w.file p
  match path with
  | some path =>
    let (_, w) ← stdioClose H s.fd w
    let (fd, w) ← openFd H es path flags w
    if 0 ≤ fd then some (some p, w.store p (some (FILE_ fd.toNat (flags &&& 0o2000 ≠ 0))))
    else
      let w ← free p w
      some (none, w)
  | none =>
    match H.setFlags w.host s.fd (if flags &&& 0o2000 ≠ 0 then 1 else 0) with
    | (e, h) =>
      if e = 0 then some (some p, { w with host := h }.store p (some (FILE_ s.fd false)))
      else
        let n ← seterrno e
        let (_, w) ← stdioClose H s.fd { w with host := h, errno := n }
        let w ← free p w
        some (none, w)

/-- `fgetpos`, src/stdio/fgetpos.c:6-11: the result, `_offset`, and the stream. -/
def fgetpos {σ : Type} (S : Stdio.Seeker σ) (f : Stdio.File σ) : Int × Int × Stdio.File σ :=
  match Stdio.ftell S f with
  | (p, f) => (if p = -1 then 1 else 0, p, f)

/-- `fsetpos`, src/stdio/fsetpos.c:5-10 -/
def fsetpos {σ : Type} (S : Stdio.Seeker σ) (f : Stdio.File σ) (offset : Int) : Int × Stdio.File σ :=
  match Stdio.stdioSeek S { f with avail := 0 } offset 0 with
  | (p, f) => (if p = -1 then 1 else 0, f)

/-- `fsetpos`, src/stdio/fsetpos.c:5-10, on a stream with a wide character pushed back: `wpushbit_` is left as it is. -/
def fsetposWide {σ : Type} (S : Stdio.Seeker σ) (f : Wio.WFile σ) (offset : Int) : Int × Wio.WFile σ :=
  match fsetpos S f.file offset with
  | (r, file) => (r, { f with file := file })

/-- `remove`, src/stdio/remove.c:7-23: the result, `errno` if set, and the host. -/
def remove {σ : Type} (H : Host σ) (es : List Entry) (path : List Nat) (h : σ) : Option (Int × Option Nat × σ) := do
  match lookup es path with
  | none => some (-1, some E.ENOENT, h)
  | some (fd, rel) =>
    let (e, h) := H.unlink h fd rel
    let n ← seterrno e
    let (e, h) := if n = E.EISDIR then H.rmdir h fd rel else (e, h)
    if e = 0 then some (0, none, h)
    else
      let n ← seterrno e
      some (-1, some n, h)

/-- `rename`, src/stdio/rename.c:5-20 -/
def rename {σ : Type} (H : Host σ) (es : List Entry) (src dst : List Nat) (h : σ) : Option (Int × Option Nat × σ) := do
  match lookup es src with
  | none => some (-1, some E.ENOENT, h)
  | some (sfd, srel) =>
    match lookup es dst with
    | none => some (-1, some E.ENOENT, h)
    | some (dfd, drel) =>
      let (e, h) := H.rename h sfd srel dfd drel
      if e = 0 then some (0, none, h)
      else
        let n ← seterrno e
        some (-1, some n, h)

open E in
/-- The labels of the `switch` in `strerror`, src/string/strerror.c:6-57 -/
def messages : List (Nat × String) :=
  [(0, "Success"), (EPERM, "Operation not permitted"), (ENOENT, "No such file or directory"), (ESRCH, "No such process"),
   (EINTR, "Interrupted system call"), (EIO, "I/O error"), (ENXIO, "No such device or address"),
   (E2BIG, "Argument list too long"), (ENOEXEC, "Exec format error"), (EBADF, "Bad file descriptor"),
   (ECHILD, "No child processes"), (EAGAIN, "Resource temporarily unavailable"), (ENOMEM, "Out of memory"),
   (EACCES, "Permission denied"), (EFAULT, "Bad address"), (EBUSY, "Device or resource busy"), (EEXIST, "File exists"),
   (EXDEV, "Cross-device link"), (ENODEV, "No such device"), (ENOTDIR, "Not a directory"), (EISDIR, "Is a directory"),
   (EINVAL, "Invalid argument"), (ENFILE, "Too many open files in system"), (EMFILE, "Too many open files"),
   (ENOTTY, "Not a terminal"), (ETXTBSY, "Text file busy"), (EFBIG, "File too large"), (ENOSPC, "No space left on device"),
   (ESPIPE, "Illegal seek"), (EROFS, "Read-only file system"), (EMLINK, "Too many links"), (EPIPE, "Broken pipe"),
   (EDOM, "Numerical argument out of domain"), (ERANGE, "Numerical result out of range"),
   (EDEADLK, "Resource deadlock avoided"), (ENAMETOOLONG, "File name too long"), (ENOLCK, "No locks available"),
   (ENOSYS, "Function not implemented"), (ENOTEMPTY, "Directory not empty"), (ELOOP, "Too many levels of symbolic links"),
   (EILSEQ, "Invalid or incomplete multibyte sequence"), (EOVERFLOW, "Value too large for defined data type"),
   (ENOTSOCK, "Socket operation on non-socket"), (EMSGSIZE, "Message too long"),
   (ENOTCONN, "Transport endpoint is not connected"), (ETIMEDOUT, "Connection timed out"),
   (ECONNREFUSED, "Connection refused"), (EALREADY, "Operation already in progress"),
   (EINPROGRESS, "Operation now in progress"), (ECANCELED, "Operation canceled")]

/-- The first entry of a list of cases with the given label. -/
def select (e : Int) : List (Nat × String) → String
  | [] => "Unknown error"
  | (n, s) :: rest => if e = n then s else select e rest

/-- `strerror`, src/string/strerror.c:4-59 -/
def strerror (e : Int) : String := select e messages

end Verif.Life
