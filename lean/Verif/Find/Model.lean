import Verif.Str.Model

/-!
# Model of `src/string/strstr.c`

The needle `x` and the haystack `y` are lists of bytes; a read outside them is `none`. `size_t` values are
naturals below `W`; the index -1 is `W - 1`. The `ptrdiff_t` variables of `periodic_` are naturals except
for `i`, which appears as `i + 1`: this takes the needle to be shorter than 2^31. The null pointer is `none`
inside the outer `Option`; a pointer into the haystack is its offset.
-/

namespace Verif.Find

/-- 2^32. -/
abbrev W : Nat := 4294967296

/-- A difference of `size_t` values. -/
def usub (a b : Nat) : Nat := (a + (W - b)) % W

/-- The loop of `split_`, strstr.c:11-37; `fuel` bounds the iterations. The result is `i` and `p`. -/
def splitLoop (comp : Nat → Nat → Bool) (x : List Nat) : Nat → Nat → Nat → Nat → Nat → Option (Nat × Nat)
  | 0, _, _, _, _ => none
  | fuel + 1, i, j, k, p =>
    if (j + k) % W < x.length then do
      let a ← x[(j + k) % W]?
      let b ← x[(i + k) % W]?
      if comp a b then splitLoop comp x fuel i ((j + k) % W) 1 (usub ((j + k) % W) i)
      else if a = b then
        if k = p then splitLoop comp x fuel i ((j + p) % W) 1 p
        else splitLoop comp x fuel i j ((k + 1) % W) p
      else splitLoop comp x fuel j ((j + 1) % W) 1 1
    else some (i, p)

/-- `split_`, strstr.c:4-37. Every iteration raises `i`, or keeps it and raises `j + k`. -/
def split (comp : Nat → Nat → Bool) (x : List Nat) : Option (Nat × Nat) :=
  splitLoop comp x ((x.length + 2) * (x.length + 2)) (W - 1) 0 1 1

/-- `lt_`, strstr.c:39-42. -/
def ltB (a b : Nat) : Bool := a < b

/-- `gt_`, strstr.c:44-47. -/
def gtB (a b : Nat) : Bool := a > b

/-- `factorize_`, strstr.c:49-60. -/
def factorize (x : List Nat) : Option (Nat × Nat) :=
  match split ltB x, split gtB x with
  | some (lt, period), some (gt, p) => if lt ≥ gt then some (lt, period) else some (gt, p)
  | _, _ => none

/-- strstr.c:68-69 and 104-105. -/
def matchUp (x y : List Nat) (j i : Nat) : Option Nat :=
  if i < x.length then do
    let a ← x[i]?
    let b ← y[i + j]?
    if a = b then matchUp x y j (i + 1) else some i
  else some i
termination_by x.length - i

/-- strstr.c:77-78 with `memory` 0, and 114-115; the argument and the result are `i + 1`. -/
def matchDown (x y : List Nat) (j memory : Nat) : Nat → Option Nat
  | 0 => some 0
  | i + 1 =>
    if i ≥ memory then do
      let a ← x[i]?
      let b ← y[i + j]?
      if a = b then matchDown x y j memory i else some (i + 1)
    else some (i + 1)

/-- `nonperiodic_`, strstr.c:62-88; every iteration raises `j`. -/
def nonperiodic (x y : List Nat) (excess index period : Nat) : Nat → Nat → Option (Option Nat)
  | 0, _ => none
  | fuel + 1, j =>
    if j ≤ excess then do
      let i ← matchUp x y j ((index + 1) % W)
      if i < x.length then nonperiodic x y excess index period fuel ((j + usub i index) % W)
      else do
        let i ← matchDown x y j 0 ((index + 1) % W)
        if i = 0 then some (some j) else nonperiodic x y excess index period fuel ((j + period) % W)
    else some none

/-- `periodic_`, strstr.c:95-127. -/
def periodic (x y : List Nat) (excess index period : Nat) : Nat → Nat → Nat → Option (Option Nat)
  | 0, _, _ => none
  | fuel + 1, j, memory =>
    if j ≤ excess then do
      let i ← matchUp x y j (max ((index + 1) % W) memory)
      if i < x.length then periodic x y excess index period fuel ((j + usub i index) % W) 0
      else do
        let i ← matchDown x y j memory ((index + 1) % W)
        if i < memory + 1 then some (some j) else periodic x y excess index period fuel ((j + period) % W) (x.length - period)
    else some none

/-- `memcmp(x, x + period, count)` is zero. -/
def repeats (x : List Nat) (period : Nat) : Nat → Nat → Option Bool
  | 0, _ => some true
  | k + 1, i => do
    let a ← x[i]?
    let b ← x[i + period]?
    if a = b then repeats x period k (i + 1) else some false

/-- `search_`, strstr.c:129-136. -/
def search (x y : List Nat) (excess index period : Nat) : Option (Option Nat) :=
  match repeats x period ((index + 1) % W) 0 with
  | some true => periodic x y excess index period (excess + 2) 0 0
  | some false => nonperiodic x y excess index period (excess + 2) 0
  | none => none

/-- `memmem`, strstr.c:138-147. -/
def memmem (y x : List Nat) : Option (Option Nat) :=
  if y.length < x.length then some none
  else
    match factorize x with
    | some (index, period) => search x y (y.length - x.length) index period
    | none => none

/-- The `n` bytes at `s`. -/
def bytesAt (m : Str.Mem) (s n : Nat) : List Nat := (List.range n).map fun i => m (s + i)

/-- `strstr`, strstr.c:149-158. -/
def strstr (L : Nat) (m : Str.Mem) (s x : Nat) : Option (Option Nat) :=
  if x < L then
    if m x = 0 then some (some s)
    else if x + 1 < L then
      if m (x + 1) = 0 then Str.strchr L m s (m x)
      else do
        let n ← Str.strlen L m s
        let k ← Str.strlen L m x
        return (← memmem (bytesAt m s n) (bytesAt m x k)).map (s + ·)
    else none
  else none

end Verif.Find
