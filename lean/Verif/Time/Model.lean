import Verif.Base
import Verif.Time.Spec

/-!
# Model of the calendar functions (src/time/gmtime.c, mktime.c, localtime.c)

`time_t` and `long long` are 64-bit, `int` and `unsigned` 32-bit. Signed values are `Int`s and go
through `chk32`/`chk64` (`none` is signed overflow); unsigned values are naturals reduced modulo
2^32. C's `/` and `%` on signed operands are `Int.tdiv` and `Int.tmod`.
-/

namespace Verif.Time

/-- `unsigned` subtraction. -/
def usub (a b : Nat) : Nat := (a + (4294967296 - b % 4294967296)) % 4294967296

/-- The unsigned part of `civil_from_days`, src/time/gmtime.c:16-21 (after `doe`): from the day of
the 400-year era to (year of era, month, day of month). -/
def civilOfEra (doe : Nat) : Nat × Nat × Nat :=
  let yoe := usub ((usub doe (doe / 1460) + doe / 36524) % 4294967296) (doe / 146096) / 365
  let doy := usub doe (usub ((365 * yoe + yoe / 4) % 4294967296) (yoe / 100))
  let mp := (5 * doy + 2) % 4294967296 / 153
  let dm := (usub doy ((153 * mp + 2) % 4294967296 / 5) + 1) % 4294967296
  let mo := if mp < 10 then mp + 3 else usub mp 9
  (yoe, mo, dm)

/-- `civil_from_days`, src/time/gmtime.c:11-26: (year, month, day). The conversions of `yoe` and
`era * 400` to `int` wrap, as clang defines them. -/
def civilFromDays (days : Int) : Option (Int × Int × Int) := do
  let days ← chk64 (days + 719468)
  let n ← (if days ≥ 0 then some days else chk64 (days - 146096) : Option Int)
  let era := n.tdiv 146097
  let e ← chk64 (era * 146097)
  let doe := u32 (← chk64 (days - e))
  let (yoe, mo, dm) := civilOfEra doe
  let e400 ← chk64 (era * 400)
  let year ← chk32 (s32 yoe + s32 (u32 e400))
  let y ← (if mo ≤ 2 then chk32 (year + 1) else some year : Option Int)
  return (y, s32 mo, s32 dm)

/-- `is_leap`, src/time/gmtime.c:28-31 (the same text as mktime.c:18-21). -/
def isLeap (y : Int) : Bool :=
  (y.tmod 4 == 0 && y.tmod 100 != 0) || y.tmod 400 == 0

/-- `month_yday`, src/time/gmtime.c:33-36 (the same table as mktime.c:23-26); `none` is an access
outside the array. -/
def monthYday (leap : Bool) (i : Int) : Option Int :=
  if 0 ≤ i then
    (if leap then [0, 31, 60, 91, 121, 152, 182, 213, 244, 274, 305, 335, 366]
      else [0, 31, 59, 90, 120, 151, 181, 212, 243, 273, 304, 334, 365])[i.toNat]?
  else none

/-- `gmtime`, src/time/gmtime.c:38-75; the static result object is returned by value. -/
def gmtime (t : Int) : Option Tm := do
  let days := t.tdiv 86400
  let secs := t.tmod 86400
  let (secs, days) := if secs < 0 then (secs + 86400, days - 1) else (secs, days)
  let (year, month, day) ← civilFromDays days
  let wday := (days.tmod 7 + 4).tmod 7
  let wday := if wday < 0 then wday + 7 else wday
  let tmYear ← chk32 (year - 1900)
  let before ← monthYday (isLeap year) (month - 1)
  return { sec := secs.tmod 60, min := (secs.tdiv 60).tmod 60, hour := secs.tdiv 3600,
           mday := day, mon := month - 1, year := tmYear, wday := wday,
           yday := before + (day - 1), isdst := 0 }

/-- `localtime`, src/time/localtime.c:11-16: a copy of what `gmtime` yields. -/
def localtime (t : Int) : Option Tm := gmtime t

/-- `days_from_civil`, src/time/mktime.c:8-16. The arguments `m` and `d` are `unsigned`. -/
def daysFromCivil (y : Int) (m d : Nat) : Option Int := do
  let y ← chk32 (y - if m ≤ 2 then 1 else 0)
  let n ← (if y ≥ 0 then some y else chk32 (y - 399) : Option Int)
  let era := n.tdiv 400
  let e ← chk32 (era * 400)
  let yoe := u32 (← chk32 (y - e))
  let mp := if m > 2 then usub m 3 else (m + 9) % 4294967296
  let doy := usub (((153 * mp + 2) % 4294967296 / 5 + d) % 4294967296) 1
  let doe := (usub ((yoe * 365 + yoe / 4) % 4294967296) (yoe / 100) + doy) % 4294967296
  let a ← chk64 (era * 146097)
  let b ← chk64 (a + (doe : Int))
  chk64 (b - 719468)

/-- The inlined copy of the calendar decomposition in `mktime`, src/time/mktime.c:69-78. -/
def mktimeCivil (normDays : Int) : Option (Int × Nat × Nat) := do
  let shifted ← chk64 (normDays + 719468)
  let n ← (if shifted ≥ 0 then some shifted else chk64 (shifted - 146096) : Option Int)
  let era := n.tdiv 146097
  let e ← chk64 (era * 146097)
  let doe := u32 (← chk64 (shifted - e))
  let yoe := usub ((usub doe (doe / 1460) + doe / 36524) % 4294967296) (doe / 146096) / 365
  let e400 ← chk64 (era * 400)
  let cyear ← chk32 (s32 yoe + s32 (u32 e400))
  let doy := usub doe (usub ((365 * yoe + yoe / 4) % 4294967296) (yoe / 100))
  let mp := (5 * doy + 2) % 4294967296 / 153
  let dm := (usub doy ((153 * mp + 2) % 4294967296 / 5) + 1) % 4294967296
  let mo := if mp < 10 then mp + 3 else usub mp 9
  let outyear ← (if mo ≤ 2 then chk32 (cyear + 1) else some cyear : Option Int)
  return (outyear, mo, dm)

/-- Month normalisation in `mktime`, src/time/mktime.c:33-43: the year and the month in [0, 11]. -/
def mktimeMonth (tmYear tmMon : Int) : Option (Int × Int) := do
  let year ← chk32 (tmYear + 1900)
  if tmMon < 0 ∨ tmMon > 11 then do
    let years := tmMon.tdiv 12
    let month := tmMon.tmod 12
    let (month, years) := if month < 0 then (month + 12, years - 1) else (month, years)
    let year ← chk32 (year + years)
    return (year, month)
  else return (year, tmMon)

/-- The re-derivation of the broken-down fields from the time, src/time/mktime.c:54-88. -/
def mktimeFields (t : Int) : Option Tm := do
  let normDays := t.tdiv 86400
  let normSecs := t.tmod 86400
  let (normSecs, normDays) := if normSecs < 0 then (normSecs + 86400, normDays - 1) else (normSecs, normDays)
  let wday := (normDays.tmod 7 + 4).tmod 7
  let wday := if wday < 0 then wday + 7 else wday
  let (outyear, mo, dm) ← mktimeCivil normDays
  let tmYear ← chk32 (outyear - 1900)
  let before ← monthYday (isLeap outyear) (s32 mo - 1)
  return { sec := normSecs.tmod 60, min := (normSecs.tdiv 60).tmod 60, hour := normSecs.tdiv 3600,
           mday := s32 dm, mon := s32 mo - 1, year := tmYear, wday := wday,
           yday := before + (s32 dm - 1), isdst := 0 }

/-- The seconds computed by `mktime` before the fields are rewritten, src/time/mktime.c:33-50. -/
def mktimeSeconds (tm : Tm) : Option Int := do
  let (year, month) ← mktimeMonth tm.year tm.mon
  let days ← daysFromCivil year (u32 (month + 1)) (u32 tm.mday)
  let h ← chk64 (tm.hour * 3600)
  let m ← chk64 (tm.min * 60)
  let hm ← chk64 (h + m)
  let secs ← chk64 (hm + tm.sec)
  let d ← chk64 (days * 86400)
  chk64 (d + secs)

/-- `mktime`, src/time/mktime.c:28-91: the returned time and the rewritten structure. -/
def mktime (tm : Tm) : Option (Int × Tm) := do
  let t ← mktimeSeconds tm
  return (t, ← mktimeFields t)

end Verif.Time
