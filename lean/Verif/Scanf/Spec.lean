import Verif.Decimal.Spec
import Verif.Scanf.Model

/-!
# Specification of formatted input (C11 7.21.6.2)

A format is a list of directives, written out by `render`. `Scan` follows the standard: each
conversion takes as its input item the longest piece of input that is, or is a prefix of, a matching
sequence (paragraph 9), and fails when that is not a matching sequence (paragraph 10). Only the type
of stored objects is shared with the model.
-/

namespace Verif.Scanf

open Verif.Strtol (White Blank Subject IsDigit denoted value)

/-- Length modifiers. -/
inductive Len where
  | none | hh | h | l | ll | j | z | t | L
  deriving DecidableEq, Repr

/-- How a modifier is written. -/
def Len.text : Len → List Int
  | .none => [] | .hh => [104, 104] | .h => [104] | .l => [108] | .ll => [108, 108]
  | .j => [106] | .z => [122] | .t => [116] | .L => [76]

/-- Size of an integer object on wasm32: `int`, `char`, `short`, `long`, `long long`, `intmax_t`,
`size_t`, `ptrdiff_t`; `L` is not for integers. -/
def Len.size : Len → Nat
  | .none => 4 | .hh => 1 | .h => 2 | .l => 4 | .ll => 8 | .j => 8 | .z => 4 | .t => 4 | .L => 0

/-- The modifier as the model records it with a floating-point object: its letter and its length. -/
def Len.mark (m : Len) : Int × Nat := (m.text.head?.getD 0, m.text.length)

/-- One element of a scanset: a character, or a range written with a hyphen. -/
inductive Elem where
  | one (c : Int)
  | range (lo hi : Int)
  deriving DecidableEq, Repr

/-- How an element is written. -/
def Elem.text : Elem → List Int
  | .one c => [c]
  | .range lo hi => [lo, 45, hi]

/-- The characters of an element; a range may be given in either order. -/
def Elem.Has : Elem → Int → Prop
  | .one c, x => x = c
  | .range lo hi, x => (lo ≤ x ∧ x ≤ hi) ∨ (hi ≤ x ∧ x ≤ lo)

/-- Conversion specifiers; `f` stands for any of `a e f g A E F G`. -/
inductive Kind where
  | d | i | u | o | x | X | p | s | c | n
  | f (letter : Int)
  | set (neg : Bool) (elems : List Elem)
  deriving DecidableEq, Repr

/-- How a specifier is written. -/
def Kind.text : Kind → List Int
  | .d => [100] | .i => [105] | .u => [117] | .o => [111] | .x => [120] | .X => [88] | .p => [112]
  | .s => [115] | .c => [99] | .n => [110] | .f a => [a]
  | .set neg es => [91] ++ (if neg then [94] else []) ++ es.flatMap Elem.text ++ [93]

/-- The base of an integer conversion. -/
def Kind.base : Kind → Option Nat
  | .d => some 10 | .i => some 0 | .u => some 10 | .o => some 8 | .x => some 16 | .X => some 16
  | .p => some 16 | _ => none

/-- Conversions that store a signed integer. -/
def Kind.signed (k : Kind) : Prop := k = .d ∨ k = .i

instance (k : Kind) : Decidable k.signed := inferInstanceAs (Decidable (_ ∨ _))

/-- A conversion specification; `digits` is the field width, empty when there is none. -/
structure Conv where
  suppress : Bool
  digits : List Int
  len : Len
  kind : Kind
  deriving DecidableEq, Repr

/-- How a conversion specification is written. -/
def Conv.text (v : Conv) : List Int :=
  [37] ++ (if v.suppress then [42] else []) ++ v.digits ++ v.len.text ++ v.kind.text

/-- The field width. -/
def Conv.limit (v : Conv) : Option Nat := if v.digits = [] then none else some (value 10 v.digits)

/-- A directive: white space, an ordinary character, or a conversion. -/
inductive Dir where
  | white (c : Int)
  | lit (c : Int)
  | conv (v : Conv)
  deriving DecidableEq, Repr

/-- How a directive is written. -/
def Dir.text : Dir → List Int
  | .white c => [c]
  | .lit c => [c]
  | .conv v => v.text

/-- A format. -/
def render (ds : List Dir) : List Int := ds.flatMap Dir.text

/-- Digits of a floating-point number. -/
def Figures (hex : Bool) (s : List Int) : Prop := ∀ c ∈ s, IsDigit (if hex then 16 else 10) c

/-- The prefix of a hexadecimal number. -/
def Prefix (hex : Bool) (s : List Int) : Prop := if hex then s = [48, 120] ∨ s = [48, 88] else s = []

/-- An optional exponent: `e`, or `p` in a hexadecimal number, an optional sign, decimal digits. -/
def Power (hex : Bool) (s : List Int) : Prop :=
  s = [] ∨ ∃ c sign ds neg, s = c :: (sign ++ ds) ∧ (c = (if hex then 112 else 101) ∨ c = (if hex then 80 else 69)) ∧
    Decimal.Spec.Sign sign neg ∧ ds ≠ [] ∧ Figures false ds

/-- Floating-point numbers as `strtod` expects them (7.22.1.3): decimal or hexadecimal, infinity, NaN. -/
inductive Real : List Int → Prop
  | num (sign pre ip point fp ex : List Int) (neg hex : Bool) : Decimal.Spec.Sign sign neg → Prefix hex pre → Figures hex ip →
      (point = [] ∧ fp = [] ∨ point = [46]) → Figures hex fp → ip ++ fp ≠ [] → Power hex ex →
      Real (sign ++ (pre ++ (ip ++ (point ++ (fp ++ ex)))))
  | inf {w neg} : Decimal.Spec.Infinite w neg → Real w
  | nan {w neg tag} : Decimal.Spec.NotNumber w neg tag → Real w

/-- Matching sequences of a conversion. -/
def Conv.Match (v : Conv) (w : List Int) : Prop :=
  match v.kind with
  | .s => w ≠ [] ∧ ∀ c ∈ w, ¬ White c
  | .c => w.length = v.limit.getD 1
  | .set neg es => w ≠ [] ∧ ∀ c ∈ w, ((∃ e ∈ es, e.Has c) ↔ neg = false)
  | .f _ => Real w
  | k => ∃ base neg radix digits, k.base = some base ∧ Subject base w neg radix digits

/-- White space before the item is skipped except for `%c` and `%[`. -/
def Conv.skips (v : Conv) : Prop :=
  match v.kind with
  | .c => False
  | .set _ _ => False
  | _ => True

/-- `w` is, or is a prefix of, a matching sequence, and no longer than the field width. -/
def Conv.Viable (v : Conv) (w : List Int) : Prop :=
  (∃ z, v.Match (w ++ z)) ∧ ∀ k, v.limit = some k → w.length ≤ k

/-- The input item at the head of the text `t`. -/
def Conv.Item (v : Conv) (t item : List Int) : Prop :=
  item <+: t ∧ v.Viable item ∧ ∀ w, w <+: t → v.Viable w → w.length ≤ item.length

/-- The object stored for the item. -/
inductive Conv.Stores (v : Conv) (item : List Int) : Obj → Prop
  | str : v.kind = .s → Stores v item (.text item)
  | set {neg es} : v.kind = .set neg es → Stores v item (.text item)
  | chars : v.kind = .c → Stores v item (.chars item)
  | real {c} : v.kind = .f c → Stores v item (.real v.len.mark item)
  | int {base neg radix digits} (size : Nat) : v.kind.base = some base →
      Subject base item neg radix digits → size = (if v.kind = .p then 4 else v.len.size) →
      Stores v item (.int size (denoted neg radix digits % 2 ^ (8 * size)).toNat)

/-- How a scan ends. -/
inductive Ending where
  /-- The format is exhausted. -/
  | complete
  /-- A matching failure of an ordinary character. -/
  | literal
  /-- A matching failure of a conversion with this input item. -/
  | mismatch (v : Conv) (item : List Int)
  /-- An input failure: no input is left. -/
  | input
  deriving DecidableEq, Repr

/-- One completed conversion: the conversion, its input item, the object. -/
structure Event where
  v : Conv
  item : List Int
  obj : Obj
  deriving DecidableEq, Repr

/-- The outcome of a scan: how it ends, the conversions completed, and the input left. -/
structure Outcome where
  ending : Ending
  events : List Event
  rest : List Int
  deriving DecidableEq, Repr

/-- A completed conversion put in front. -/
def Outcome.cons (e : Event) (o : Outcome) : Outcome := { o with events := e :: o.events }

/-- `Scan ds t n o`: the directives `ds`, applied to the text `t` after `n` characters have been
read, have the outcome `o`. -/
inductive Scan : List Dir → List Int → Nat → Outcome → Prop
  | nil {t n} : Scan [] t n ⟨.complete, [], t⟩
  | white {c ds b t n o} : Blank b → (∀ x ∈ t.head?, ¬ White x) → Scan ds t (n + b.length) o →
      Scan (.white c :: ds) (b ++ t) n o
  | lit {c ds t n o} : Scan ds t (n + 1) o → Scan (.lit c :: ds) (c :: t) n o
  | litOther {c x ds t n} : x ≠ c → Scan (.lit c :: ds) (x :: t) n ⟨.literal, [], x :: t⟩
  | litEnd {c ds n} : Scan (.lit c :: ds) [] n ⟨.input, [], []⟩
  | count {v : Conv} {ds t n o} : v.kind = .n → Scan ds t n o →
      Scan (.conv v :: ds) t n (o.cons ⟨v, [], .int v.len.size (n % 2 ^ (8 * v.len.size))⟩)
  | done {v : Conv} {ds b item t n o obj} : v.kind ≠ .n → Blank b → (¬ v.skips → b = []) →
      (v.skips → ∀ x ∈ (item ++ t).head?, ¬ White x) → item ++ t ≠ [] → v.Item (item ++ t) item →
      v.Match item → v.Stores item obj → Scan ds t (n + b.length + item.length) o →
      Scan (.conv v :: ds) (b ++ item ++ t) n (o.cons ⟨v, item, obj⟩)
  | mismatch {v : Conv} {ds b item t n} : v.kind ≠ .n → Blank b → (¬ v.skips → b = []) →
      (v.skips → ∀ x ∈ (item ++ t).head?, ¬ White x) → item ++ t ≠ [] → v.Item (item ++ t) item →
      ¬ v.Match item → Scan (.conv v :: ds) (b ++ item ++ t) n ⟨.mismatch v item, [], t⟩
  | empty {v : Conv} {ds b n} : v.kind ≠ .n → Blank b → (¬ v.skips → b = []) →
      Scan (.conv v :: ds) b n ⟨.input, [], []⟩

/-- Conversions completed; `%n` is not counted. -/
def Outcome.done (o : Outcome) : Nat := (o.events.filter fun e => e.v.kind ≠ .n).length

/-- Input items assigned. -/
def Outcome.assigned (o : Outcome) : Nat :=
  (o.events.filter fun e => e.v.kind ≠ .n ∧ e.v.suppress = false).length

/-- The value returned (paragraph 16): `EOF` if an input failure occurs before the first conversion
has completed, otherwise the number of items assigned. -/
def Outcome.value (o : Outcome) : Int :=
  if o.ending = .input ∧ o.done = 0 then -1 else o.assigned

/-- The objects stored through the arguments, in order. -/
def Outcome.objects (o : Outcome) : List Obj :=
  (o.events.filter fun e => e.v.suppress = false).map Event.obj

/-- Objects with the numbers of the pointers they go through, from `k` on. -/
def number : Nat → List Obj → List (Nat × Obj)
  | _, [] => []
  | k, o :: os => (k, o) :: number (k + 1) os

/-- The last directive of a format other than `%n` is an ordinary character or `%c` (`b` for the
empty format). -/
def tight (b : Bool) : List Dir → Bool
  | [] => b
  | .white _ :: ds => tight false ds
  | .lit _ :: ds => tight true ds
  | .conv v :: ds => tight (if v.kind = .n then b else decide (v.kind = .c)) ds

/-- The pointers a format needs. -/
def pointers (ds : List Dir) : Nat :=
  (ds.filter fun d => match d with | .conv v => v.suppress = false | _ => False).length

/-- Bytes. -/
def Bytes (t : List Int) : Prop := ∀ c ∈ t, 0 ≤ c ∧ c ≤ 255

/-- A list of scanset elements that its text determines: a range does not end in `]`; only the first
element may begin with `]`; a character is followed by a hyphen only as the last element. -/
def elemsOk : Bool → List Elem → Prop
  | _, [] => True
  | first, .one c :: es => (1 ≤ c ∧ c ≤ 255) ∧ (c ≠ 93 ∨ first = true) ∧
      ((∀ x ∈ (es.flatMap Elem.text).head?, x ≠ 45) ∨ es = [.one 45]) ∧ elemsOk false es
  | first, .range lo hi :: es => (1 ≤ lo ∧ lo ≤ 255) ∧ (1 ≤ hi ∧ hi ≤ 255) ∧ (lo ≠ 93 ∨ first = true) ∧
      hi ≠ 93 ∧ elemsOk false es

/-- Well-formed directives: white space is white space; an ordinary character is neither that nor a
percent sign; a field width is a positive decimal number below 2^31 - 1; a scanset is not empty and
begins with a circumflex only to be negated; length modifiers other than `l` and `L` are used with
integers only, `L` with floating-point numbers only. -/
def Dir.Ok : Dir → Prop
  | .white c => White c
  | .lit c => ¬ White c ∧ c ≠ 37 ∧ 1 ≤ c ∧ c ≤ 255
  | .conv v => (∀ c ∈ v.digits, 48 ≤ c ∧ c ≤ 57) ∧
      (v.digits ≠ [] → 0 < value 10 v.digits ∧ value 10 v.digits < 2147483647) ∧
      match v.kind with
      | .s => v.len = .none
      | .c => v.len = .none
      | .p => v.len = .none
      | .set neg es => v.len = .none ∧ es ≠ [] ∧ elemsOk true es ∧
          (neg = false → (es.flatMap Elem.text).head? ≠ some 94)
      | .f c => (v.len = .none ∨ v.len = .l ∨ v.len = .L) ∧ c ∈ [97, 101, 102, 103, 65, 69, 70, 71]
      | _ => v.len ≠ .L

/-! Restrictions under which the library agrees with the standard. -/

/-- What is required of a completed conversion: a number has at most 127 characters; an integer has a
value that fits in 64 bits and is not -2^63, and is not a zero that uses up the field width. -/
def Event.Fine (e : Event) : Prop :=
  (∀ c, e.v.kind = .f c → e.item.length ≤ 127) ∧
  ∀ base, e.v.kind.base = some base → e.item.length ≤ 127 ∧
    (e.v.limit = some e.item.length → e.item ≠ [48] ∧ e.item ≠ [43, 48] ∧ e.item ≠ [45, 48]) ∧
    ∀ neg radix digits, Subject base e.item neg radix digits →
      if e.v.kind.signed then -9223372036854775808 < denoted neg radix digits ∧ denoted neg radix digits ≤ 9223372036854775807
      else value radix digits ≤ 18446744073709551615

/-- What is required of a matching failure: that of an integer does not use up the field width, that
of a floating-point number is at most a sign and a point, and `%c` finds as many characters as it asks
for. -/
def Ending.Fine : Ending → Prop
  | .mismatch v item => v.kind ≠ .c ∧ (v.kind.base ≠ none → v.limit ≠ some item.length) ∧
      ∀ c, v.kind = .f c → item = [] ∨ item = [43] ∨ item = [45] ∨ item = [46] ∨ item = [43, 46] ∨ item = [45, 46]
  | _ => True

end Verif.Scanf
