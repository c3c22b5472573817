import Verif.Stdio.Spec
import Verif.Utf.Spec
import Verif.Wide.Spec
import Verif.Wio.Model

/-!
# Specification of the wide streams

The unread text of a stream is a list of bytes; a wide character stands for its UTF-8 sequence
(`Verif/Utf/Spec.lean`).
-/

namespace Verif.Wio

open Utf.Spec

/-- No continuation of `bs` begins with a well-formed sequence. -/
def Wrong (bs : List Nat) : Prop := ∀ ext p rest v, Bytes ext → WF p v → bs ++ ext ≠ p ++ rest

/-- `bs` does not begin with a well-formed sequence. -/
def Unfinished (bs : List Nat) : Prop := ∀ p rest v, WF p v → bs ≠ p ++ rest

/-- Successive calls of `fgetwc` return the characters `cs` and lead from `f` to `g`. -/
inductive Reads {σ : Type} (R : Stdio.Reader σ) : WFile σ → List Nat → WFile σ → Prop
  | nil (f) : Reads R f [] f
  | cons {f c g cs h} : fgetwc R f = some (c, g) → c ≠ WEOF → Reads R g cs h → Reads R f (c :: cs) h

/-- A file with no orientation and nothing pushed back, just opened. -/
def fresh {σ : Type} (h : σ) : WFile σ := ⟨Stdio.fresh h, 0, none⟩

/-- The indicators seen by `feof` and `ferror`. -/
def marks {σ : Type} (f : WFile σ) : Bool × Bool := (f.file.eof, f.file.err)

/-- A host file that keeps everything written to it. -/
def tape : Stdio.Writer (List (Fin 256)) := fun h bs =>
  (.inr bs.length, h ++ bs.map fun b => ⟨b % 256, Nat.mod_lt _ (by decide)⟩)

/-- The bytes a host file accepted in the calls that lead from one of its states to another. -/
inductive Took {σ : Type} (W : Stdio.Writer σ) : σ → List Nat → σ → Prop
  | nil {h} : Took W h [] h
  | write {h h' h'' bs n t} : W h bs = (.inr n, h') → Took W h' t h'' → Took W h (bs.take n ++ t) h''
  | fail {h h' h'' bs e t} : W h bs = (.inl e, h') → Took W h' t h'' → Took W h t h''

/-- One call of a function on a stream. -/
inductive Step {σ : Type} (R : Stdio.Reader σ) (W : Stdio.Writer σ) (S : Stdio.Seeker σ) : WFile σ → WFile σ → Prop
  | fgetwc {f c g} : fgetwc R f = some (c, g) → Step R W S f g
  | fgetws {f m s n r m' g} : fgetws R m s n f = some (r, m', g) → Step R W S f g
  | fputwc (f c) : Step R W S f (fputwc W c f).2
  | fputws (f cs) : Step R W S f (fputws W cs f).2
  | ungetwc (f c) : Step R W S f (ungetwc c f).2
  | fwide (f mode) : Step R W S f (fwide f mode).2
  | clearerr (f) : Step R W S f (clearerr f)
  | fseek (f off origin) : Step R W S f (fseek S f off origin).2
  | getc (f) : Step R W S f (getc R f).2
  | putc (f c) : Step R W S f (putc W c f).2

/-- Any number of calls. -/
inductive Steps {σ : Type} (R : Stdio.Reader σ) (W : Stdio.Writer σ) (S : Stdio.Seeker σ) : WFile σ → WFile σ → Prop
  | refl (f) : Steps R W S f f
  | step {f g h} : Step R W S f g → Steps R W S g h → Steps R W S f h

end Verif.Wio
