import Verif.Wasi.Model

/-!
# Specification of the WASI glue
-/

namespace Verif.Wasi

/-! ## Error numbers -/

/-- The error names of WASI snapshot preview1 in the order of their numbers. -/
def wasiNames : List String :=
  ["success", "2big", "acces", "addrinuse", "addrnotavail", "afnosupport", "again", "already",
   "badf", "badmsg", "busy", "canceled", "child", "connaborted", "connrefused", "connreset",
   "deadlk", "destaddrreq", "dom", "dquot", "exist", "fault", "fbig", "hostunreach",
   "idrm", "ilseq", "inprogress", "intr", "inval", "io", "isconn", "isdir",
   "loop", "mfile", "mlink", "msgsize", "multihop", "nametoolong", "netdown", "netreset",
   "netunreach", "nfile", "nobufs", "nodev", "noent", "noexec", "nolck", "nolink",
   "nomem", "nomsg", "noprotoopt", "nospc", "nosys", "notconn", "notdir", "notempty",
   "notrecoverable", "notsock", "notsup", "notty", "nxio", "overflow", "ownerdead", "perm",
   "pipe", "proto", "protonosupport", "prototype", "range", "rofs", "spipe", "srch",
   "stale", "timedout", "txtbsy", "xdev", "notcapable"]

/-- The errno constants that `include/errno.h` gives to programs, by name. -/
def posixNumbers : List (String × Nat) :=
  [("perm", 1), ("noent", 2), ("srch", 3), ("intr", 4),
   ("io", 5), ("nxio", 6), ("2big", 7), ("noexec", 8),
   ("badf", 9), ("child", 10), ("again", 11), ("nomem", 12),
   ("acces", 13), ("fault", 14), ("notblk", 15), ("busy", 16),
   ("exist", 17), ("xdev", 18), ("nodev", 19), ("notdir", 20),
   ("isdir", 21), ("inval", 22), ("nfile", 23), ("mfile", 24),
   ("notty", 25), ("txtbsy", 26), ("fbig", 27), ("nospc", 28),
   ("spipe", 29), ("rofs", 30), ("mlink", 31), ("pipe", 32),
   ("dom", 33), ("range", 34), ("deadlk", 35), ("nametoolong", 36),
   ("nolck", 37), ("nosys", 38), ("notempty", 39), ("loop", 40),
   ("nomsg", 42), ("idrm", 43), ("chrng", 44), ("l2nsync", 45),
   ("l3hlt", 46), ("l3rst", 47), ("lnrng", 48), ("unatch", 49),
   ("nocsi", 50), ("l2hlt", 51), ("bade", 52), ("badr", 53),
   ("xfull", 54), ("noano", 55), ("badrqc", 56), ("badslt", 57),
   ("bfont", 59), ("nostr", 60), ("nodata", 61), ("time", 62),
   ("nosr", 63), ("nonet", 64), ("nopkg", 65), ("remote", 66),
   ("nolink", 67), ("adv", 68), ("srmnt", 69), ("comm", 70),
   ("proto", 71), ("multihop", 72), ("dotdot", 73), ("badmsg", 74),
   ("overflow", 75), ("notuniq", 76), ("badfd", 77), ("remchg", 78),
   ("libacc", 79), ("libbad", 80), ("libscn", 81), ("libmax", 82),
   ("libexec", 83), ("ilseq", 84), ("restart", 85), ("strpipe", 86),
   ("users", 87), ("notsock", 88), ("destaddrreq", 89), ("msgsize", 90),
   ("prototype", 91), ("noprotoopt", 92), ("protonosupport", 93), ("socktnosupport", 94),
   ("opnotsupp", 95), ("pfnosupport", 96), ("afnosupport", 97), ("addrinuse", 98),
   ("addrnotavail", 99), ("netdown", 100), ("netunreach", 101), ("netreset", 102),
   ("connaborted", 103), ("connreset", 104), ("nobufs", 105), ("isconn", 106),
   ("notconn", 107), ("shutdown", 108), ("toomanyrefs", 109), ("timedout", 110),
   ("connrefused", 111), ("hostdown", 112), ("hostunreach", 113), ("already", 114),
   ("inprogress", 115), ("stale", 116), ("uclean", 117), ("notnam", 118),
   ("navail", 119), ("isnam", 120), ("remoteio", 121), ("dquot", 122),
   ("nomedium", 123), ("mediumtype", 124), ("canceled", 125), ("nokey", 126),
   ("keyexpired", 127), ("keyrevoked", 128), ("keyrejected", 129), ("ownerdead", 130),
   ("notrecoverable", 131)]

/-- The POSIX name for a WASI error: the same name, except that `ENOTSUP` is
the alias `EOPNOTSUPP` and `ENOTCAPABLE`, which POSIX lacks, is `EACCES`. -/
def posixName (name : String) : String :=
  if name = "notsup" then "opnotsupp" else if name = "notcapable" then "acces" else name

/-! ## Preopened directories -/

/-- The directory called `name` contains `path`: `path` is the directory or lies
below it. -/
def Covers (name path : List Nat) : Prop := path = name ∨ ∃ r, path = name ++ 47 :: r

/-- The current directory, which contains every relative path. -/
def Here (name : List Nat) : Prop := name = [] ∨ name = [46]

/-- A path without leading `./`. -/
inductive Plain : List Nat → List Nat → Prop
  | dot {r q} : Plain (r.dropWhile (· = 47)) q → Plain (46 :: 47 :: r) q
  | done {p} : (∀ r, p ≠ 46 :: 47 :: r) → Plain p p

/-- Entry `e` contains the path `p`, and `len` bytes of it are the name of the
directory. -/
def Fits (e : Entry) (p : List Nat) (len : Nat) : Prop :=
  (Here e.name ∧ p.head? ≠ some 47 ∧ len = 0) ∨
  (¬ Here e.name ∧ Covers e.name p ∧ len = e.name.length)

/-- The path passed on: without the slashes that separate it from the directory,
and `.` for the directory itself. -/
def Rest (p : List Nat) (len : Nat) (rel : List Nat) : Prop :=
  (∃ k, p.drop len = List.replicate k 47 ++ rel ∧ rel ≠ [] ∧ rel.head? ≠ some 47) ∨
  (rel = [46] ∧ ∃ k, p.drop len = List.replicate k 47)

/-! ## Opening files -/

/-- Bits of WASI snapshot preview1 rights. -/
def rightNames : List (String × Nat) :=
  [("fd_datasync", 0), ("fd_read", 1), ("fd_seek", 2), ("fd_fdstat_set_flags", 3),
   ("fd_sync", 4), ("fd_tell", 5), ("fd_write", 6), ("fd_advise", 7), ("fd_allocate", 8),
   ("path_create_directory", 9), ("path_create_file", 10), ("path_link_source", 11),
   ("path_link_target", 12), ("path_open", 13), ("fd_readdir", 14), ("path_readlink", 15),
   ("path_rename_source", 16), ("path_rename_target", 17), ("path_filestat_get", 18),
   ("path_filestat_set_size", 19), ("path_filestat_set_times", 20), ("fd_filestat_get", 21),
   ("fd_filestat_set_size", 22), ("fd_filestat_set_times", 23), ("path_symlink", 24),
   ("path_remove_directory", 25), ("path_unlink_file", 26), ("poll_fd_readwrite", 27),
   ("sock_shutdown", 28), ("sock_accept", 29)]

/-- The named right is among `rights`. -/
def Grants (rights : Nat) (name : String) : Prop :=
  ∃ b, (name, b) ∈ rightNames ∧ rights.testBit b = true

/-- The directories among what the host lists from descriptor `fd` on. -/
def dirs : Nat → List Prestat → List (Nat × List Nat)
  | _, [] => []
  | fd, .dir name _ :: ps => (fd, name) :: dirs (fd + 1) ps
  | fd, .error :: ps => dirs (fd + 1) ps
  | fd, .other :: ps => dirs (fd + 1) ps

/-- `t` is `name` without its trailing slashes. -/
def Trimmed (name t : List Nat) : Prop := (∃ k, name = t ++ List.replicate k 47) ∧ t.getLast? ≠ some 47

end Verif.Wasi
