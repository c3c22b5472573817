import Verif.Life.Model
import Verif.Stdio.Spec
import Verif.Wasi.Spec

/-!
# Specification: which descriptors are open, what a file system holds
-/

namespace Verif.Life
open Verif.Wasi

/-- One call a program makes about streams. -/
inductive Call where
  | fopen (path mode : List Nat)
  | fclose (p : Nat)
  | freopen (path : Option (List Nat)) (mode : List Nat) (p : Nat)

/-- The effect of one call; `none` is undefined behaviour. -/
def call {σ : Type} (H : Host σ) (malloc : List Nat → Option Nat) (es : List Entry) (c : Call) (w : World σ) : Option (World σ) :=
  match c with
  | .fopen path mode => (fopen H malloc es path mode w).map (·.2)
  | .fclose p => (fclose H p w).map (·.2)
  | .freopen path mode p => (freopen H es path mode p w).map (·.2)

/-- The effect of a whole program. -/
def calls {σ : Type} (H : Host σ) (malloc : List Nat → Option Nat) (es : List Entry) : List Call → World σ → Option (World σ)
  | [], w => some w
  | c :: cs, w => (call H malloc es c w).bind (calls H malloc es cs)

/-- A host that keeps a table `fds` of open descriptors: opening adds one that was not open, closing takes it away, whether or
not it reports an error, and nothing else changes the table. -/
structure Descriptors {σ : Type} (H : Host σ) (fds : σ → List Nat) : Prop where
  opened : ∀ s r fd s', H.pathOpen s r = ((0, fd), s') → fd ∉ fds s ∧ fd < 2 ^ 31 ∧ fds s' = fd :: fds s
  notOpened : ∀ s r e fd s', H.pathOpen s r = ((e, fd), s') → e ≠ 0 → fds s' = fds s
  closed : ∀ s fd e s', fd ∈ fds s → H.fdClose s fd = (e, s') → fds s' = (fds s).erase fd
  kept : ∀ s fd f e s', H.setFlags s fd f = (e, s') → fds s' = fds s

/-- An allocator hands out storage that is neither in use nor part of the program's own objects `own`. -/
def Fresh (malloc : List Nat → Option Nat) (own : List Nat) : Prop := ∀ live p, malloc live = some p → p ∉ live ∧ p ∉ own

/-- The descriptor of the stream at an address. -/
def fdOf {σ : Type} (w : World σ) (p : Nat) : Nat := ((w.file p).map Stream.fd).getD 0

/-- The streams are those at the addresses `own` and the allocated ones, and the open descriptors are those in `base`, which
belong to no stream, and one for each stream. -/
structure Balanced {σ : Type} (fds : σ → List Nat) (base own : List Nat) (w : World σ) : Prop where
  distinct : (own ++ w.heap).Nodup
  streams : ∀ p, (w.file p).isSome = true ↔ p ∈ own ++ w.heap
  table : (fds w.host).Perm (base ++ (own ++ w.heap).map (fdOf w))
  single : (fds w.host).Nodup

/-- What a file system holds under a directory and a name. -/
inductive Node where
  | file (data : List (Fin 256))
  | dir
deriving DecidableEq

/-- A file system by directory descriptor and path. -/
abbrev FS := Nat × List Nat → Option Node

/-- Nothing lies below a path. -/
def Empty (fs : FS) (fd : Nat) (rel : List Nat) : Prop := ∀ name, fs (fd, rel ++ 47 :: name) = none

/-- The file system without one entry. -/
def FS.without (fs : FS) (k : Nat × List Nat) : FS := fun q => if q = k then none else fs q

/-- A host whose `path_unlink_file` removes files only and whose `path_remove_directory` removes empty directories only. -/
structure Removes {σ : Type} (H : Host σ) (fs : σ → FS) : Prop where
  unlinkNone : ∀ s fd rel, fs s (fd, rel) = none → ∃ s', H.unlink s fd rel = (44, s') ∧ fs s' = fs s
  unlinkFile : ∀ s fd rel d, fs s (fd, rel) = some (.file d) →
    ∃ s', H.unlink s fd rel = (0, s') ∧ fs s' = (fs s).without (fd, rel)
  unlinkDir : ∀ s fd rel, fs s (fd, rel) = some .dir → ∃ s', H.unlink s fd rel = (31, s') ∧ fs s' = fs s
  rmdirEmpty : ∀ s fd rel, fs s (fd, rel) = some .dir → Empty (fs s) fd rel →
    ∃ s', H.rmdir s fd rel = (0, s') ∧ fs s' = (fs s).without (fd, rel)
  rmdirFull : ∀ s fd rel, fs s (fd, rel) = some .dir → ¬ Empty (fs s) fd rel →
    ∃ s', H.rmdir s fd rel = (55, s') ∧ fs s' = fs s

end Verif.Life
