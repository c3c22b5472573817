import Verif.Approx.ModelLog

/-!
# Model of `cbrtf`

`src/math/float/cbrtf.c`.  `none` is undefined behaviour: in `normalizef_`, or an overflow of `int32_t`.
-/

namespace Verif.Approx
open Verif.Float

/-- The `double` 1.5. -/
def c3half : Nat := 0x3FF8000000000000

/-- `y * (0.5 + 1.5 * x / (2 * y * (y * y) + x))`, src/math/float/cbrtf.c:17 and 18 -/
def halley (y x : Nat) : Nat :=
  b64.mul y (b64.add half (Arith.fdiv b64 (b64.mul c3half x) (b64.add (b64.mul (b64.mul two y) (b64.mul y y)) x)))

/-- `kernel_`, src/math/float/cbrtf.c:6-21, from line 13 on -/
def cbrtFinite (x : Nat) (i : Int) : Option Nat :=
  (chk32 (0x2A512CE3 + i.tdiv 3)).map fun j => narrow (halley (halley (wide (u32 j)) (wide x)) (wide x))

/-- `kernel_`, src/math/float/cbrtf.c:6-21 -/
def cbrtKernel (x : Nat) : Option Nat :=
  if s32 x = 0 ∨ 0x7F800000 ≤ s32 x then some x else (Math.normalize Math.flt x).bind (cbrtFinite x)

/-- `cbrtf`, src/math/float/cbrtf.c:23-26 -/
def cbrtf (x : Nat) : Option Nat := (cbrtKernel (b32.abs x)).map fun r => b32.copysign r x

end Verif.Approx
