/-!
# Specification of the proleptic Gregorian calendar

Everything is phrased through "the next day": the date of day 0 is 1970-01-01 and day n+1 is the
day after day n. Nothing here refers to the model.
-/

namespace Verif.Time

/-- A year is a leap year when divisible by 4 but not by 100, or divisible by 400. -/
def Leap (y : Int) : Prop := (4 ∣ y ∧ ¬ 100 ∣ y) ∨ 400 ∣ y

instance (y : Int) : Decidable (Leap y) := inferInstanceAs (Decidable (_ ∨ _))

/-- Length of month `m` (1 = January) of year `y`. -/
def monthLen (y m : Int) : Int :=
  if m = 2 then (if Leap y then 29 else 28)
  else if m = 4 ∨ m = 6 ∨ m = 9 ∨ m = 11 then 30 else 31

/-- A calendar date. -/
structure Date where
  y : Int
  m : Int
  d : Int
  deriving DecidableEq

/-- Existing dates. -/
def Date.Valid (x : Date) : Prop := 1 ≤ x.m ∧ x.m ≤ 12 ∧ 1 ≤ x.d ∧ x.d ≤ monthLen x.y x.m

/-- The day after. -/
def Date.next (x : Date) : Date :=
  if x.d < monthLen x.y x.m then ⟨x.y, x.m, x.d + 1⟩
  else if x.m < 12 then ⟨x.y, x.m + 1, 1⟩
  else ⟨x.y + 1, 1, 1⟩

/-- `DateOfDay n x`: `x` is the date of day `n`, day 0 being 1970-01-01. -/
inductive DateOfDay : Int → Date → Prop
  | epoch : DateOfDay 0 ⟨1970, 1, 1⟩
  | after {n x} : DateOfDay n x → DateOfDay (n + 1) x.next
  | before {n x} : x.Valid → DateOfDay (n + 1) x.next → DateOfDay n x

/-- Values of the C type `int`. -/
def InInt (x : Int) : Prop := -2147483648 ≤ x ∧ x ≤ 2147483647

/-- Values of `time_t`. -/
def InTime (x : Int) : Prop := -9223372036854775808 ≤ x ∧ x ≤ 9223372036854775807

/-- `struct tm`, include/time.h:15-26. -/
structure Tm where
  sec : Int
  min : Int
  hour : Int
  mday : Int
  mon : Int
  year : Int
  wday : Int
  yday : Int
  isdst : Int
  deriving DecidableEq, Repr

/-- The broken-down time `tm` denotes `t` seconds after 1970-01-01T00:00:00Z: every field is in its
documented range, day `n` has the date in `tm`, its weekday counts from Thursday, day 0, and
`yday` days earlier it was January 1. -/
def Denotes (tm : Tm) (t : Int) : Prop :=
  0 ≤ tm.sec ∧ tm.sec ≤ 59 ∧ 0 ≤ tm.min ∧ tm.min ≤ 59 ∧ 0 ≤ tm.hour ∧ tm.hour ≤ 23 ∧
  0 ≤ tm.wday ∧ tm.wday ≤ 6 ∧ 0 ≤ tm.yday ∧ tm.yday ≤ 365 ∧ tm.isdst = 0 ∧
  ∃ n : Int, t = n * 86400 + tm.hour * 3600 + tm.min * 60 + tm.sec ∧
    DateOfDay n ⟨tm.year + 1900, tm.mon + 1, tm.mday⟩ ∧
    7 ∣ (n + 4 - tm.wday) ∧ DateOfDay (n - tm.yday) ⟨tm.year + 1900, 1, 1⟩

end Verif.Time
