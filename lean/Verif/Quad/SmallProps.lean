import Verif.Quad.Small
import Verif.Math.Spec

/-!
# Properties of the conversion of 32-bit integers to `long double`
-/

namespace Verif.Quad

open Verif.Float Verif.Math.Spec

/-- C147: every `unsigned` converts to `long double` exactly. -/
theorem C147_unsigned (a : Nat) (h : a < 2 ^ 32) :
    RoundsInt b128 a (floatunsitf a) ∧ Pat b128 (floatunsitf a) ∧ value b128 (floatunsitf a) = a * 2 ^ b128.unit :=
  ⟨floatunsitf_exact a h, exact_value (by omega) (floatunsitf_exact a h)⟩

/-- C147: every `int`, the most negative one included, converts to `long double` exactly. -/
theorem C147_signed (a : Int) (h1 : -2 ^ 31 ≤ a) (h2 : a < 2 ^ 31) :
    RoundsInt b128 a (floatsitf a) ∧ Pat b128 (floatsitf a) ∧ value b128 (floatsitf a) = a * 2 ^ b128.unit :=
  ⟨floatsitf_exact a h1 h2, exact_value (by omega) (floatsitf_exact a h1 h2)⟩

example : floatsitf (-2147483648) = 0xC01E0000000000000000000000000000 ∧ floatsitf (-3) = 0xC0008000000000000000000000000000 ∧
    floatunsitf 4294967295 = 0x401EFFFFFFFE00000000000000000000 ∧ floatsitf 0 = 0 := by decide +kernel

end Verif.Quad
