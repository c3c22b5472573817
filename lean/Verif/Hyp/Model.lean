import Verif.Cplx.Model

/-!
# Model of `hypotf`

`src/math/float/hypotf.c`. Patterns are those of `Verif/Float/Spec.lean`; the operations on `double` are the WebAssembly
instructions. `none` stands for undefined behaviour inside `nextafterf`.
-/

namespace Verif.Hyp
open Verif.Float Verif.Math
open Verif.Cplx (fsqrt isInf up down)

/-- hypotf.c:46-67: the exact decision near a midpoint. `0x7F7FFFFF` is `FLT_MAX`, `0x47EFFFFFF0000000` is
`0x1.ffffffp127`, `0x3FE0000000000000` is `0.5`. -/
def decide32 (bb ss r2 rf : Nat) : Option Nat :=
  let bp := b64.sub r2 bb
  let e := b64.add (b64.sub bb (b64.sub r2 bp)) (b64.sub ss bp)
  let rd := up rf
  let resid := b64.add (b64.sub r2 (b64.mul rd rd)) e
  if b64.eq resid 0 then some rf
  else if b32.eq rf 0x7F7FFFFF ∧ b64.lt 0 resid then
    let m := 0x47EFFFFFF0000000
    some (if b64.le 0 (b64.add (b64.sub r2 (b64.mul m m)) e) then b32.inf else rf)
  else do
    let nb ← nextafter flt rf (if b64.lt 0 resid then b32.inf else b32.opp b32.inf)
    let m := b64.mul 0x3FE0000000000000 (b64.add rd (up nb))
    let residm := b64.add (b64.sub r2 (b64.mul m m)) e
    if b64.eq residm 0 then some (if rf % 2 = 1 then nb else rf)
    else some (if b64.lt 0 residm = b64.lt 0 resid then nb else rf)

/-- `hypotf`, hypotf.c:5-68. `0x3F2FFFFFE0000000` is `0x1.fffffep-13`, `0x47EFFFFFE0000000` is `FLT_MAX` as a `double`. -/
def hypotf (x y : Nat) : Option Nat :=
  let ax := b32.abs x
  let ay := b32.abs y
  if ¬ b32.isFin ax ∨ ¬ b32.isFin ay then
    if isInf b32 ax ∨ isInf b32 ay then some b32.inf else some (b32.add ax ay)
  else
    let big := fmax b32 ax ay
    let small := fmin b32 ax ay
    let bd := up big
    let sd := up small
    let bb := b64.mul bd bd
    let ss := b64.mul sd sd
    if b64.lt sd (b64.mul bd 0x3F2FFFFFE0000000) then some big
    else
      let r2 := b64.add bb ss
      let r := fsqrt b64 r2
      let rf := down r
      if 0x47EFFFFFE0000000 < r then some rf
      else if 2 < (r + 1) % 2 ^ 28 then some rf
      else decide32 bb ss r2 rf

end Verif.Hyp
