import Verif.Int128.Model

/-!
# Model of integer → floating-point conversions (`src/soft/integer`, `src/soft/float`)

Results are bit patterns (`reinterpret`).
-/

namespace Verif.Int128

/-- C truth value of `a & b && a & c`. -/
def both (a b c : Nat) : Nat := if (a &&& b) ≠ 0 ∧ (a &&& c) ≠ 0 then 1 else 0

/-- `floatuntidf_`, src/soft/integer/floatuntidf.h:5-20 -/
def floatuntidf (a : Nat) : Nat :=
  let bit := 1 <<< 74
  let mask := 3 * bit - 1
  if a = 0 then 0
  else
    let space := clz128 a
    let normalized := (a <<< space) % 2^128
    let adjustment := both normalized bit mask
    let significand := (normalized >>> 75) &&& 0x000FFFFFFFFFFFFF
    let exp := 1023 + 127 - space
    ((significand ||| (exp <<< 52) % 2^64) + adjustment) % 2^64

/-- `a < 0 ? -a : a`; `none` is signed overflow (only for `-2^127`). -/
def magnitude128 (a : Int) : Option Nat :=
  if a < 0 then (chk128 (-a)).map toU else some (toU a)

/-- `floattidf_`, src/soft/integer/floattidf.h:5-23 -/
def floattidf (a : Int) : Option Nat :=
  let bit := 1 <<< 74
  let mask := 3 * bit - 1
  if a = 0 then some 0
  else
    (magnitude128 a).map fun magnitude =>
      let space := clz128 magnitude
      let normalized := (magnitude <<< space) % 2^128
      let adjustment := both normalized bit mask
      let significand := (normalized >>> 75) &&& 0x000FFFFFFFFFFFFF
      let exp := 1023 + 127 - space
      let sign := (toU a >>> 64) &&& 0x8000000000000000
      ((significand ||| (exp <<< 52) % 2^64 ||| sign) + adjustment) % 2^64

/-- `floatuntisf_`, src/soft/integer/floatuntisf.h:5-20 -/
def floatuntisf (a : Nat) : Nat :=
  let bit := 1 <<< 103
  let mask := 3 * bit - 1
  if a = 0 then 0
  else
    let space := clz128 a
    let normalized := (a <<< space) % 2^128
    let adjustment := both normalized bit mask
    let significand := (normalized >>> 104) &&& 0x7FFFFF
    let exp := 127 + 127 - space
    ((significand ||| (exp <<< 23) % 2^32) + adjustment) % 2^32

/-- `floattisf_`, src/soft/integer/floattisf.h:5-23 -/
def floattisf (a : Int) : Option Nat :=
  let bit := 1 <<< 103
  let mask := 3 * bit - 1
  if a = 0 then some 0
  else
    (magnitude128 a).map fun magnitude =>
      let space := clz128 magnitude
      let normalized := (magnitude <<< space) % 2^128
      let adjustment := both normalized bit mask
      let significand := (normalized >>> 104) &&& 0x7FFFFF
      let exp := 127 + 127 - space
      let sign := (toU a >>> 96) &&& 0x80000000
      ((significand ||| (exp <<< 23) % 2^32 ||| sign) + adjustment) % 2^32

/-- `__floatuntitf`, src/soft/float/floatuntitf.c:4-18 -/
def floatuntitf (a : Nat) : Nat :=
  let mask := (2^128 - 1) >>> 16
  if a = 0 then 0
  else
    let space := clz128 a
    let normalized := (a <<< space) % 2^128
    let adjustment := both normalized 0x4000 0xBFFF
    let significand := (normalized >>> 15) &&& mask
    let exp := 0x3FFF + 127 - space
    ((significand ||| (exp <<< 112) % 2^128) + adjustment) % 2^128

/-- `__floattitf`, src/soft/float/floattitf.c:4-21 -/
def floattitf (a : Int) : Option Nat :=
  let mask := (2^128 - 1) >>> 16
  if a = 0 then some 0
  else
    (magnitude128 a).map fun magnitude =>
      let sign := toU a &&& (1 <<< 127)
      let space := clz128 magnitude
      let normalized := (magnitude <<< space) % 2^128
      let adjustment := both normalized 0x4000 0xBFFF
      let significand := (normalized >>> 15) &&& mask
      let exp := 0x3FFF + 127 - space
      ((significand ||| (exp <<< 112) % 2^128 ||| sign) + adjustment) % 2^128

/-- `__floatunditf`, src/soft/float/floatunditf.c:4-14 -/
def floatunditf (a : Nat) : Nat :=
  if a = 0 then 0
  else
    let space := clz64 a
    let significand := (((a <<< space) % 2^64) &&& 0x7FFFFFFFFFFFFFFF) <<< 49 % 2^128
    let exp := 0x3FFF + 63 - space
    significand ||| (exp <<< 112) % 2^128

/-- `__floatditf`, src/soft/float/floatditf.c:5-18; `llabs` overflows for `-2^63`. -/
def floatditf (a : Int) : Option Nat :=
  if a = 0 then some 0
  else
    let sign := u64 a &&& 0x8000000000000000
    (if a < 0 then chk64 (-a) else some a).map fun m =>
      let magnitude := u64 m
      let space := clz64 magnitude
      let significand := (((magnitude <<< space) % 2^64) &&& 0x7FFFFFFFFFFFFFFF) <<< 49 % 2^128
      let exp := 0x3FFF + 63 - space
      significand ||| (exp <<< 112) % 2^128 ||| (sign <<< 64) % 2^128

end Verif.Int128
