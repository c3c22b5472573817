import Verif.Stdio.Model
import Verif.Str.Spec

/-!
# Specification of the byte streams of stdio

The unread text of a stream is a list of bytes.  Functions are described by
what they take from it.
-/

namespace Verif.Stdio

/-- The host never stores more bytes than asked for, and bytes are below 256. -/
def Honest {σ : Type} (R : Reader σ) : Prop :=
  ∀ h n bs h', R h n = (.give bs, h') → bs.length ≤ n ∧ ∀ b ∈ bs, b < 256

/-- The push-back cache of a stream is within its array and holds bytes. -/
def Sound {σ : Type} (f : File σ) : Prop := f.avail ≤ 16 ∧ ∀ i, f.cache i < 256

/-- The bytes pushed back, next one first. -/
def pending {σ : Type} (f : File σ) : List Nat :=
  (List.range f.avail).map fun i => f.cache (16 - f.avail + i)

/-- A host file with unread contents `bs` that always delivers as much as it can. -/
def disk : Reader (List (Fin 256)) := fun bs n => (.give ((bs.take n).map Fin.val), bs.drop n)

/-- A freshly opened stream. -/
def fresh {σ : Type} (h : σ) : File σ :=
  { eof := false, err := false, app := false, avail := 0, cache := fun _ => 0, host := h }

/-- One operation of a program that reads a stream. -/
inductive Op where
  | get
  | unget (c : Int)

/-- The stream as a program sees it: bytes pushed back, newest first, and the
file behind them. -/
def refStep {σ : Type} (R : Reader σ) : Op → List Nat × σ → Option Nat × List Nat × σ
  | .get, (b :: st, h) => (some b, st, h)
  | .get, ([], h) =>
      match R h 1 with
      | (.give (b :: _), h') => (some b, [], h')
      | (.give [], h') => (none, [], h')
      | (.fail _, h') => (none, [], h')
  | .unget c, (st, h) =>
      if c = EOF ∨ 16 ≤ st.length then (none, st, h)
      else (some (Str.byteOf c), Str.byteOf c :: st, h)

/-- Results of a sequence of operations, `none` for failure. -/
def refRun {σ : Type} (R : Reader σ) : List Op → List Nat × σ → List (Option Nat)
  | [], _ => []
  | op :: ops, s => (refStep R op s).1 :: refRun R ops (refStep R op s).2

/-- Successive calls of `getc` return the bytes `bs` and lead from `f` to `g`. -/
inductive Reads {σ : Type} (R : Reader σ) : File σ → List Nat → File σ → Prop
  | nil (f) : Reads R f [] f
  | cons {f b g bs h} : getc R f = (Int.ofNat b, g) → b < 256 → Reads R g bs h → Reads R f (b :: bs) h

/-- The bytes of `text` up to and including the first `d`, or all of them. -/
def upTo (d : Int) : List Nat → List Nat
  | [] => []
  | b :: bs => if (b : Int) = d then [b] else b :: upTo d bs

/-- The stream `f` on a `disk` has `text` left to read. -/
def Unread (f : File (List (Fin 256))) (text : List Nat) : Prop :=
  Sound f ∧ pending f ++ f.host.map Fin.val = text

/-- Results of a sequence of operations on a stream, `none` for `EOF`. -/
def outs {σ : Type} (R : Reader σ) : List Op → File σ → List (Option Nat)
  | [], _ => []
  | .get :: ops, f =>
      (if (getc R f).1 = EOF then none else some (Str.byteOf (getc R f).1)) :: outs R ops (getc R f).2
  | .unget c :: ops, f =>
      (if (ungetc c f).1 = EOF then none else some (Str.byteOf (ungetc c f).1)) ::
        outs R ops (ungetc c f).2

/-- The stream after pushing back `cs` one after the other. -/
def pushAll {σ : Type} : List Nat → File σ → File σ
  | [], f => f
  | c :: cs, f => pushAll cs (ungetc c f).2

/-- The line read so far lies at the start of the buffer. -/
def Stored (l : Line) (bs : List Nat) : Prop := ∀ i (h : i < bs.length), l.data i = bs[i]

/-- What a call of `getdelim` that has not run out of steps guarantees. -/
def GotSpec {σ : Type} (R : Reader σ) (grow : Nat → Bool) (delim : Int) (f0 : File σ) : Got σ → Prop
  | .fault => False
  | .more => True
  | .minus _ f => ∃ bs g, Reads R f0 bs g ∧ (∀ b ∈ bs.dropLast, (b : Int) ≠ delim) ∧
      ((bs = [] ∧ getc R g = (EOF, f)) ∨ (f = g ∧ bs ≠ [] ∧ ∃ n, grow n = false))
  | .line n l f => ∃ bs g, Reads R f0 bs g ∧ bs ≠ [] ∧ n = bs.length ∧ n < l.cap ∧
      Stored l (bs ++ [0]) ∧ (∀ b ∈ bs.dropLast, (b : Int) ≠ delim) ∧
      ((∃ b, bs.getLast? = some b ∧ (b : Int) = delim ∧ f = g) ∨
        ((∀ b ∈ bs, (b : Int) ≠ delim) ∧ getc R g = (EOF, f)))

/-- A regular file: its contents and the position of the next access. -/
structure Regular where
  data : List (Fin 256)
  pos : Nat

/-- Reading a regular file delivers as much as there is. -/
def Regular.reader : Reader Regular := fun d n =>
  (.give (((d.data.drop d.pos).take n).map Fin.val),
    { d with pos := d.pos + min n (d.data.length - d.pos) })

/-- `fd_seek` on a regular file: error 28 (`EINVAL`) before the start. -/
def Regular.seeker : Seeker Regular := fun d off whence =>
  let base : Int := if whence = 0 then 0 else if whence = 1 then d.pos else d.data.length
  if base + off < 0 then (.inl 28, d) else (.inr (base + off).toNat, { d with pos := (base + off).toNat })

/-- The bytes a program reads next from a stream on a regular file. -/
def next (f : File Regular) : List Nat :=
  pending f ++ (f.host.data.drop f.host.pos).map Fin.val

end Verif.Stdio
