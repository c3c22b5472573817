import Verif.Scanf.Spec
import Verif.Utf.Spec

/-!
# Specification of formatted wide input (C11 7.29.2.2)

The directives are those of `scanf`, applied to wide characters: `Scanf.Scan` on code points. What differs is that `%s` without
the length modifier `l` stores the item as a multibyte string, in UTF-8 here.
-/

namespace Verif.Wscan

open Verif.Scanf Verif.Utf.Spec
open Verif.Strtol (White)

/-- The code points of a text. -/
def codes (t : List Char) : List Int := t.map fun c => (c.toNat : Int)

/-- A text without null characters. -/
def Str (t : List Char) : Prop := ∀ c ∈ t, 0 < c.toNat

/-- The wide string at a pointer: the text, a null character, anything. -/
def wstr (t : List Char) (junk : List Nat) : List Nat := t.map Char.toNat ++ 0 :: junk

/-- `bs` is the UTF-8 encoding of the code points `cs`. -/
def Utf8 (bs cs : List Int) : Prop := ∃ b c : List Nat, Enc b c ∧ bs = b.map Int.ofNat ∧ cs = c.map Int.ofNat

/-- The object that should be stored where the scan of code points gives `o`. -/
inductive Multi : Obj → Obj → Prop
  | text {bs cs} : Utf8 bs cs → Multi (.text cs) (.text bs)
  | int {size v} : Multi (.int size v) (.int size v)
  | real {m s} : Multi (.real m s) (.real m s)

/-- The objects that should be stored, in order. -/
inductive Each : List Obj → List Obj → Prop
  | nil : Each [] []
  | cons {a b as bs} : Multi a b → Each as bs → Each (a :: as) (b :: bs)

/-- Directives of a wide format: ordinary characters may be any. -/
def DirOk : Dir → Prop
  | .lit c => ¬ White c ∧ c ≠ 37 ∧ 1 ≤ c ∧ Scalar c.toNat
  | d => d.Ok

/-- The directives with which the library handles every text: white space, ordinary characters, integers, numbers, and `%s` without
a field width. -/
def Plain : Dir → Prop
  | .conv v => v.kind ≠ .c ∧ v.kind ≠ .n ∧ (∀ neg es, v.kind ≠ .set neg es) ∧ (v.kind = .s → v.digits = [])
  | _ => True

/-- ASCII text. -/
def Ascii (t : List Char) : Prop := ∀ c ∈ t, c.toNat < 128

end Verif.Wscan
