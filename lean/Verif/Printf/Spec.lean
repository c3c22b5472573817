import Verif.Base
import Verif.Str.Spec
import Verif.Utf.Spec

/-!
# What formatted output means (C11 7.21.6.1)

Directives, the arguments they take and the text they stand for, for the integer, character, string and
count conversions. Nothing here refers to the model.
-/

namespace Verif.Printf.Spec

open Str (Holds)

/-- Memory: the byte at each address. -/
abbrev Mem := Nat → Nat

/-- The character for a digit. -/
def digit (upper : Bool) (d : Nat) : Nat := if d < 10 then 48 + d else if upper then 55 + d else 87 + d

/-- The numeral of `n` in base `b`. -/
def numeral (b : Nat) (upper : Bool) (n : Nat) : List Nat :=
  if h : n < b ∨ b < 2 then [digit upper n] else numeral b upper (n / b) ++ [digit upper (n % b)]
termination_by n
decreasing_by exact Nat.div_lt_self (by omega) (by omega)

/-- The length modifiers. -/
inductive Size where
  | none | hh | h | l | ll | j | z | t | L
deriving DecidableEq

/-- How a length modifier is written. -/
def Size.text : Size → List Nat
  | none => []
  | hh => [104, 104]
  | h => [104]
  | l => [108]
  | ll => [108, 108]
  | j => [106]
  | z => [122]
  | t => [116]
  | L => [76]

/-- The width of the type it selects, in bytes; `L` selects `long double`. -/
def Size.bytes : Size → Nat
  | none => 4
  | hh => 1
  | h => 2
  | l => 4
  | ll => 8
  | j => 8
  | z => 4
  | t => 4
  | L => 16

/-- An argument read as the signed type of that size. -/
def Size.signed (s : Size) (v : Int) : Int := v.bmod (2 ^ (8 * s.bytes))

/-- An argument read as the unsigned type of that size. -/
def Size.unsigned (s : Size) (v : Int) : Nat := (v % 2 ^ (8 * s.bytes)).toNat

/-- A field width or precision: digits, or `*`. -/
inductive Field where
  | num (ds : List Nat)
  | star

def Field.text : Field → List Nat
  | num ds => ds
  | star => [42]

/-- The number denoted by decimal digits. -/
def value (ds : List Nat) : Nat := ds.foldl (fun v c => v * 10 + (c - 48)) 0

/-- A conversion specification: flags, width, precision, length modifier, conversion. -/
structure Dir where
  flags : List Nat
  width : Field
  prec : Option Field
  size : Size
  conv : Nat

/-- The precision with its period. -/
def precText : Option Field → List Nat
  | none => []
  | some f => 46 :: f.text

def Dir.text (d : Dir) : List Nat :=
  37 :: d.flags ++ d.width.text ++ precText d.prec ++ d.size.text ++ [d.conv]

/-- A number that fits `int`, written in digits. -/
def Field.Ok : Field → Prop
  | num ds => (∀ c ∈ ds, 48 ≤ c ∧ c < 58) ∧ value ds < 2 ^ 31
  | star => True

/-- A well-formed specification: the flags are `- + space # 0 '`, and the width does not begin with a 0,
which would be a flag. -/
def Dir.Ok (d : Dir) : Prop :=
  (∀ c ∈ d.flags, c ∈ [45, 43, 32, 35, 48, 39]) ∧ d.width.Ok ∧ d.width.text.head? ≠ some 48 ∧
  (∀ f, d.prec = some f → f.Ok)

/-- The value of a field and the arguments that remain; `*` takes an `int`. -/
def Field.take : Field → List Int → Option (Int × List Int)
  | num ds, args => some (value ds, args)
  | star, a :: args => if IsI32 a then some (a, args) else none
  | star, [] => none

/-- What the specification asks for: whether to left-justify, the width and the precision, after taking the
arguments for `*`. A negative width argument is the flag `-` with a positive width, a negative precision
argument counts as no precision. -/
structure Ask where
  minus : Bool
  width : Nat
  prec : Option Nat
deriving DecidableEq

def Dir.ask (d : Dir) (args : List Int) : Option (Ask × List Int) :=
  match d.width.take args with
  | none => none
  | some (w, args) =>
    match d.prec with
    | none => some (⟨45 ∈ d.flags ∨ w < 0, w.natAbs, none⟩, args)
    | some f =>
      match f.take args with
      | none => none
      | some (p, args) => some (⟨45 ∈ d.flags ∨ w < 0, w.natAbs, if p < 0 then none else some p.toNat⟩, args)

/-- The sign of a signed conversion. -/
def sign (d : Dir) (x : Int) : List Nat :=
  if x < 0 then [45] else if 43 ∈ d.flags then [43] else if 32 ∈ d.flags then [32] else []

/-- At least as many digits as the precision says (1 if missing); zero with precision zero has none. -/
def digits (prec : Option Nat) (b : Nat) (upper : Bool) (n : Nat) : List Nat :=
  if n = 0 ∧ prec = some 0 then []
  else List.replicate (prec.getD 1 - (numeral b upper n).length) 48 ++ numeral b upper n

/-- The flag `#` of octal conversions: the first digit is made a zero. -/
def altOctal (ds : List Nat) : List Nat := if ds.head? = some 48 then ds else 48 :: ds

/-- Padding of a number to the field width. -/
def justify (d : Dir) (a : Ask) (pre body : List Nat) : List Nat :=
  let n := a.width - (pre ++ body).length
  if a.minus then pre ++ body ++ List.replicate n 32
  else if 48 ∈ d.flags ∧ a.prec = none then pre ++ List.replicate n 48 ++ body
  else List.replicate n 32 ++ pre ++ body

/-- The conversions of integers: `d i o u x X`, with a length modifier for integers. -/
def Dir.isInt (d : Dir) : Bool := d.conv ∈ [100, 105, 111, 117, 120, 88] ∧ d.size ≠ .L

/-- The text of an integer conversion. -/
def Dir.int (d : Dir) (a : Ask) (v : Int) : List Nat :=
  if d.conv = 100 ∨ d.conv = 105 then
    justify d a (sign d (d.size.signed v)) (digits a.prec 10 false (d.size.signed v).natAbs)
  else if d.conv = 117 then justify d a [] (digits a.prec 10 false (d.size.unsigned v))
  else if d.conv = 111 then
    justify d a [] (if 35 ∈ d.flags then altOctal (digits a.prec 8 false (d.size.unsigned v))
      else digits a.prec 8 false (d.size.unsigned v))
  else
    justify d a (if 35 ∈ d.flags ∧ d.size.unsigned v ≠ 0 then [48, d.conv] else [])
      (digits a.prec 16 (d.conv = 88) (d.size.unsigned v))

/-- Padding of characters and strings. -/
def padText (a : Ask) (t : List Nat) : List Nat :=
  if a.minus then t ++ List.replicate (a.width - t.length) 32 else List.replicate (a.width - t.length) 32 ++ t

/-- `StrText m p prec t`: `t` is what `%s` prints of the array at `p`: all up to the terminator, but no more
than the precision, in which case no terminator is needed. -/
def StrText (m : Mem) (p : Nat) (prec : Option Nat) (t : List Nat) : Prop :=
  Holds m p t ∧ (∀ b ∈ t, b ≠ 0) ∧
  match prec with
  | none => m (p + t.length) = 0
  | some k => t.length = k ∨ (t.length < k ∧ m (p + t.length) = 0)

/-- The `wchar_t` at an address, least significant byte first. -/
def wchar (m : Mem) (a : Nat) : Nat := m a + 256 * m (a + 1) + 65536 * m (a + 2) + 16777216 * m (a + 3)

/-- `WideText m p prec t`: `t` is what `%ls` prints of the array at `p`: the characters up to the terminator
in UTF-8, but no more bytes than the precision and no part of a character. -/
def WideText (m : Mem) (p : Nat) (prec : Option Nat) (t : List Nat) : Prop :=
  ∃ cs, Utf.Spec.Enc t cs ∧ (∀ i (_ : i < cs.length), wchar m (p + 4 * i) = cs[i] ∧ cs[i] ≠ 0) ∧
  match prec with
  | none => wchar m (p + 4 * cs.length) = 0
  | some k => t.length ≤ k ∧ (wchar m (p + 4 * cs.length) = 0 ∨
      ∃ bs, Utf.Spec.WF bs (wchar m (p + 4 * cs.length)) ∧ k < t.length + bs.length)

/-- A piece of a format. -/
inductive Item where
  | lit (c : Nat)
  | percent
  | dir (d : Dir)

def Item.text : Item → List Nat
  | lit c => [c]
  | percent => [37, 37]
  | dir d => d.text

/-- Pieces that a format can be cut into. -/
def Item.Ok : Item → Prop
  | lit c => c ≠ 37 ∧ c ≠ 0
  | percent => True
  | dir d => d.Ok

/-- The format string. -/
def format (is : List Item) : List Nat := is.flatMap Item.text

/-- `Prints m k is args t st`: with `k` characters already printed, the format `is` with the arguments
`args` prints `t` and makes the stores `st` (address, size in bytes, value). Each constructor is a clause of
C11 7.21.6.1. -/
inductive Prints (m : Mem) : Nat → List Item → List Int → List Nat → List (Nat × Nat × Nat) → Prop
  | nil {k args} : Prints m k [] args [] []
  | lit {k c is args t st} : Prints m (k + 1) is args t st → Prints m k (.lit c :: is) args (c :: t) st
  | percent {k is args t st} : Prints m (k + 1) is args t st → Prints m k (.percent :: is) args (37 :: t) st
  | int {k d a v is args args' t st} : d.isInt → d.ask args = some (a, v :: args') →
      Prints m (k + (d.int a v).length) is args' t st → Prints m k (.dir d :: is) args (d.int a v ++ t) st
  | chr {k d a v is args args' t st} : d.conv = 99 → d.size = .none → d.ask args = some (a, v :: args') →
      Prints m (k + (padText a [(v % 256).toNat]).length) is args' t st →
      Prints m k (.dir d :: is) args (padText a [(v % 256).toNat] ++ t) st
  | wchr {k d a v bs is args args' t st} : d.conv = 99 → d.size = .l → d.ask args = some (a, v :: args') →
      Utf.Spec.WF bs (v % 2 ^ 32).toNat → Prints m (k + (padText a bs).length) is args' t st →
      Prints m k (.dir d :: is) args (padText a bs ++ t) st
  | str {k d a v bs is args args' t st} : d.conv = 115 → d.size = .none → d.ask args = some (a, v :: args') →
      StrText m (v % 2 ^ 32).toNat a.prec bs → Prints m (k + (padText a bs).length) is args' t st →
      Prints m k (.dir d :: is) args (padText a bs ++ t) st
  | wstr {k d a v bs is args args' t st} : d.conv = 115 → d.size = .l → d.ask args = some (a, v :: args') →
      WideText m (v % 2 ^ 32).toNat a.prec bs → Prints m (k + (padText a bs).length) is args' t st →
      Prints m k (.dir d :: is) args (padText a bs ++ t) st
  | count {k d v is args t st} : d.conv = 110 → d.size ≠ .L → d.flags = [] → d.width = .num [] → d.prec = none →
      Prints m k is args t st →
      Prints m k (.dir d :: is) (v :: args) t (((v % 2 ^ 32).toNat, d.size.bytes, k % 2 ^ (8 * d.size.bytes)) :: st)

/-! ## Where the library is known to comply -/

/-- Directives outside the known failures: `d` and `i` with the least `intmax_t`; `c` and `s` with a field
width that asks for padding; `s` with a precision that ends the string before the next multiple of 8 of
addresses. Strings end below the limit `L` of memory. -/
def Dir.Clean (L : Nat) (m : Mem) (d : Dir) (a : Ask) (v : Int) : Prop :=
  (d.conv = 100 ∨ d.conv = 105 → d.size.signed v ≠ -2 ^ 63) ∧
  (d.conv = 99 → a.width ≤ 1) ∧
  (d.conv = 115 → d.size = .none → ∀ t, StrText m (v % 2 ^ 32).toNat a.prec t →
    a.width ≤ t.length ∧
    ((v % 2 ^ 32).toNat + t.length < L ∨ ((v % 2 ^ 32).toNat + t.length = L ∧ a.prec = some t.length)) ∧
    (a.prec = some t.length → (v % 2 ^ 32).toNat % 8 = 0 ∨ 8 ≤ (v % 2 ^ 32).toNat % 8 + t.length)) ∧
  (d.conv = 115 → d.size = .l → ∀ t, WideText m (v % 2 ^ 32).toNat a.prec t →
    a.width ≤ t.length ∧ (v % 2 ^ 32).toNat + 4 * t.length + 4 ≤ L)

/-- All directives of a format are outside the known failures. -/
def Clean (L : Nat) (m : Mem) : List Item → List Int → Prop
  | [], _ => True
  | .lit _ :: is, args => Clean L m is args
  | .percent :: is, args => Clean L m is args
  | .dir d :: is, args =>
    match d.ask args with
    | some (a, v :: args) => d.Clean L m a v ∧ Clean L m is args
    | _ => True

/-- A decimal conversion with at least two digits (signed) or three (unsigned). -/
def Dir.long (d : Dir) (v : Int) : Bool :=
  ((d.conv = 100 ∨ d.conv = 105) ∧ 10 ≤ (d.size.signed v).natAbs) ∨ (d.conv = 117 ∧ 100 ≤ d.size.unsigned v)

/-- Some directive of a format is such a conversion. -/
def long : List Item → List Int → Bool
  | [], _ => false
  | .lit _ :: is, args => long is args
  | .percent :: is, args => long is args
  | .dir d :: is, args =>
    match d.ask args with
    | some (_, v :: args) => d.long v || long is args
    | _ => false

/-! ## Results -/

/-- The bytes a host file accepts in successive writes. -/
inductive Took {σ : Type} (W : σ → List Nat → (Nat ⊕ Nat) × σ) : σ → List Nat → σ → Prop
  | nil {h} : Took W h [] h
  | write {h h' h'' bs n t} : W h bs = (.inr n, h') → Took W h' t h'' → Took W h (bs.take n ++ t) h''
  | fail {h h' h'' bs e t} : W h bs = (.inl e, h') → Took W h' t h'' → Took W h t h''

end Verif.Printf.Spec
