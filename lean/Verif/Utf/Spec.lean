/-!
# Specification of UTF-8 and UTF-16

Well-formed UTF-8 byte sequences exactly as in Table 3-7 of the Unicode Standard,
with the scalar value each one denotes.
-/

namespace Verif.Utf.Spec

/-- A trailing byte in the range `lo..hi`. -/
abbrev B (lo hi b : Nat) : Prop := lo ≤ b ∧ b ≤ hi

/-- `WF bs v`: `bs` is a well-formed UTF-8 sequence for the scalar value `v`. -/
inductive WF : List Nat → Nat → Prop
  | r1 {a} : B 0x00 0x7F a → WF [a] a
  | r2 {a b} : B 0xC2 0xDF a → B 0x80 0xBF b → WF [a, b] ((a - 0xC0) * 64 + (b - 0x80))
  | r3 {b c} : B 0xA0 0xBF b → B 0x80 0xBF c →
      WF [0xE0, b, c] ((b - 0x80) * 64 + (c - 0x80))
  | r4 {a b c} : B 0xE1 0xEC a → B 0x80 0xBF b → B 0x80 0xBF c →
      WF [a, b, c] ((a - 0xE0) * 4096 + (b - 0x80) * 64 + (c - 0x80))
  | r5 {b c} : B 0x80 0x9F b → B 0x80 0xBF c →
      WF [0xED, b, c] (0xD * 4096 + (b - 0x80) * 64 + (c - 0x80))
  | r6 {a b c} : B 0xEE 0xEF a → B 0x80 0xBF b → B 0x80 0xBF c →
      WF [a, b, c] ((a - 0xE0) * 4096 + (b - 0x80) * 64 + (c - 0x80))
  | r7 {b c d} : B 0x90 0xBF b → B 0x80 0xBF c → B 0x80 0xBF d →
      WF [0xF0, b, c, d] ((b - 0x80) * 4096 + (c - 0x80) * 64 + (d - 0x80))
  | r8 {a b c d} : B 0xF1 0xF3 a → B 0x80 0xBF b → B 0x80 0xBF c → B 0x80 0xBF d →
      WF [a, b, c, d] ((a - 0xF0) * 262144 + (b - 0x80) * 4096 + (c - 0x80) * 64 + (d - 0x80))
  | r9 {b c d} : B 0x80 0x8F b → B 0x80 0xBF c → B 0x80 0xBF d →
      WF [0xF4, b, c, d] (4 * 262144 + (b - 0x80) * 4096 + (c - 0x80) * 64 + (d - 0x80))

/-- Unicode scalar values: code points that are not surrogates. -/
def Scalar (v : Nat) : Prop := v < 0xD800 ∨ (0xE000 ≤ v ∧ v < 0x110000)

instance (v : Nat) : Decidable (Scalar v) := inferInstanceAs (Decidable (_ ∨ _))

/-- A list of bytes. -/
def Bytes (bs : List Nat) : Prop := ∀ b ∈ bs, b < 256

/-- The UTF-16 code units of a scalar value (Unicode Table 3-5). -/
def utf16 (v : Nat) : List Nat :=
  if v < 0x10000 then [v] else [0xD800 + (v - 0x10000) / 0x400, 0xDC00 + (v - 0x10000) % 0x400]

end Verif.Utf.Spec

namespace Verif.Utf.Spec

/-- What a caller of the decoder observes after offering some bytes. -/
inductive Obs
  /-- a character was produced after `used` bytes (0 for the NUL character, as C11 7.29.6.3.2 says) -/
  | char (v used : Nat)
  /-- encoding error -/
  | invalid
  /-- all bytes were absorbed, more are needed; the conversion state is `st` -/
  | more (st : Nat)
  deriving DecidableEq, Repr

/-- `Enc bs cs`: `bs` is the concatenation of the UTF-8 sequences of the characters `cs`. -/
inductive Enc : List Nat → List Nat → Prop
  | nil : Enc [] []
  | cons {b bs c cs} : WF b c → Enc bs cs → Enc (b ++ bs) (c :: cs)

end Verif.Utf.Spec
