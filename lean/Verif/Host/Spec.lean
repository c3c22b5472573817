import Verif.Host.Model
import Verif.Wasi.Spec

/-!
# Specification of clocks, file attributes and time differences
-/

namespace Verif.Host

/-- `(s, n)` is the time `t`, given in nanoseconds, in seconds and nanoseconds. -/
def Seconds (t : Nat) (p : Int × Int) : Prop := p.1 * 1000000000 + p.2 = t ∧ 0 ≤ p.2 ∧ p.2 < 1000000000

/-- The file types of WASI snapshot preview1 by number, with the test macro of <sys/stat.h> and the value of `mode & S_IFMT` it
tests for (the values of every Unix). -/
def fileTypes : List (Nat × String × Nat) :=
  [(1, "S_ISBLK", 0o060000), (2, "S_ISCHR", 0o020000), (3, "S_ISDIR", 0o040000), (4, "S_ISREG", 0o100000),
   (5, "S_ISSOCK", 0o140000), (6, "S_ISSOCK", 0o140000), (7, "S_ISLNK", 0o120000)]

/-- The test macro `name` holds of `mode`. -/
def Is (name : String) (mode : Nat) : Prop :=
  ∃ v, (name, v) ∈ [("S_ISDIR", 0o040000), ("S_ISCHR", 0o020000), ("S_ISBLK", 0o060000), ("S_ISREG", 0o100000),
    ("S_ISFIFO", 0o010000), ("S_ISLNK", 0o120000), ("S_ISSOCK", 0o140000)] ∧ mode &&& 0o170000 = v

/-- What a program is told about a file: identity, kind, size, times. -/
structure Describes (fs : FileStat) (s : Stat) : Prop where
  id : s.dev = fs.dev ∧ s.ino = fs.ino
  kind : ∀ n m v, (n, m, v) ∈ fileTypes → fs.filetype = n → ∀ name, Is name s.mode ↔ name = m
  other : (∀ n m v, (n, m, v) ∈ fileTypes → fs.filetype ≠ n) → ∀ name, ¬ Is name s.mode
  links : s.nlink = fs.nlink
  size : s.size = fs.size
  blocks : (fs.size : Int) ≤ s.blocks * 512 ∧ s.blocks * 512 < fs.size + 512
  accessed : Seconds fs.atim s.atim
  modified : Seconds fs.mtim s.mtim
  changed : Seconds fs.ctim s.ctim

/-- `errno` is the POSIX error for the WASI error `e`. -/
def ErrnoFor (e errno : Nat) : Prop :=
  ∃ name, Wasi.wasiNames[e]? = some name ∧ (Wasi.posixName name, errno) ∈ Wasi.posixNumbers

/-- The host's answer is one that WASI allows and that fits the fields. -/
def Sane (fs : FileStat) : Prop :=
  fs.size < 2 ^ 63 ∧ fs.nlink < 2 ^ 32 ∧ fs.atim < 2 ^ 64 ∧ fs.mtim < 2 ^ 64 ∧ fs.ctim < 2 ^ 64

/-- The reply `a` to the program says what the host said: a description of the file, or the error of the same name. -/
def Told : Except Nat FileStat → Option Reply → Prop
  | .ok fs, a => ∃ s, a = some (.ok s) ∧ (Sane fs → Describes fs s)
  | .error e, a => e ≠ 0 → e < Wasi.wasiNames.length → ∃ n, a = some (.fail n) ∧ ErrnoFor e n

/-- Directory `e` of the table is the one with the longest name, and the first of those, that contains `p`; `rel` is the rest of
the path. -/
def Chosen (es : List Wasi.Entry) (p : List Nat) (e : Wasi.Entry) (rel : List Nat) : Prop :=
  ∃ len l r, es = l ++ e :: r ∧ Wasi.Fits e p len ∧ Wasi.Rest p len rel ∧
    (∀ e' ∈ l, ∀ len', Wasi.Fits e' p len' → len' < len) ∧ (∀ e' ∈ r, ∀ len', Wasi.Fits e' p len' → len' ≤ len)

end Verif.Host
