import Verif.Time.Spec

/-!
# Specification of `strftime` in the C locale (C11 7.27.3.5 with the POSIX extensions listed in the
header comment of the source)
-/

namespace Verif.Time

/-- A number in decimal, padded on the left to at least `width` characters. -/
def dec (width : Nat) (pad : Char) (n : Int) : List Char :=
  let d := Nat.toDigits 10 n.toNat
  List.replicate (width - d.length) pad ++ d

def dayNames : List String := ["Sunday", "Monday", "Tuesday", "Wednesday", "Thursday", "Friday", "Saturday"]

def monthNames : List String := ["January", "February", "March", "April", "May", "June", "July", "August",
  "September", "October", "November", "December"]

/-- Fields in their documented ranges, and a year that is not negative. -/
structure Std (tm : Tm) : Prop where
  sec : 0 ≤ tm.sec ∧ tm.sec ≤ 60
  min : 0 ≤ tm.min ∧ tm.min ≤ 59
  hour : 0 ≤ tm.hour ∧ tm.hour ≤ 23
  mday : 1 ≤ tm.mday ∧ tm.mday ≤ 31
  mon : 0 ≤ tm.mon ∧ tm.mon ≤ 11
  year : 0 ≤ tm.year + 1900 ∧ tm.year + 1900 ≤ 2147483647
  wday : 0 ≤ tm.wday ∧ tm.wday ≤ 6
  yday : 0 ≤ tm.yday ∧ tm.yday ≤ 365

def weekday (tm : Tm) : List Char := (dayNames.getD tm.wday.toNat "").toList
def monthName (tm : Tm) : List Char := (monthNames.getD tm.mon.toNat "").toList
def hms (tm : Tm) : List Char := dec 2 '0' tm.hour ++ [':'] ++ dec 2 '0' tm.min ++ [':'] ++ dec 2 '0' tm.sec
def hour12 (tm : Tm) : Int := if tm.hour % 12 = 0 then 12 else tm.hour % 12
def ampm (tm : Tm) : List Char := if tm.hour < 12 then ['A', 'M'] else ['P', 'M']
def mdy (tm : Tm) : List Char :=
  dec 2 '0' (tm.mon + 1) ++ ['/'] ++ dec 2 '0' tm.mday ++ ['/'] ++ dec 2 '0' ((tm.year + 1900) % 100)

/-- The text of conversion `%c`; unknown ones are echoed. -/
def conv (tm : Tm) (c : Char) : List Char :=
  match c with
  | 'Y' => dec 4 '0' (tm.year + 1900)
  | 'y' => dec 2 '0' ((tm.year + 1900) % 100)
  | 'C' => dec 2 '0' ((tm.year + 1900) / 100)
  | 'm' => dec 2 '0' (tm.mon + 1)
  | 'd' => dec 2 '0' tm.mday
  | 'e' => dec 2 ' ' tm.mday
  | 'H' => dec 2 '0' tm.hour
  | 'I' => dec 2 '0' (hour12 tm)
  | 'M' => dec 2 '0' tm.min
  | 'S' => dec 2 '0' tm.sec
  | 'j' => dec 3 '0' (tm.yday + 1)
  | 'p' => ampm tm
  | 'A' => weekday tm
  | 'a' => (weekday tm).take 3
  | 'B' => monthName tm
  | 'b' => (monthName tm).take 3
  | 'h' => (monthName tm).take 3
  | 'c' => (weekday tm).take 3 ++ [' '] ++ (monthName tm).take 3 ++ [' '] ++ dec 2 ' ' tm.mday ++ [' '] ++ hms tm ++
      [' '] ++ dec 4 '0' (tm.year + 1900)
  | 'x' => mdy tm
  | 'X' => hms tm
  | 'F' => dec 4 '0' (tm.year + 1900) ++ ['-'] ++ dec 2 '0' (tm.mon + 1) ++ ['-'] ++ dec 2 '0' tm.mday
  | 'T' => hms tm
  | 'R' => dec 2 '0' tm.hour ++ [':'] ++ dec 2 '0' tm.min
  | 'D' => mdy tm
  | 'r' => dec 2 '0' (hour12 tm) ++ [':'] ++ dec 2 '0' tm.min ++ [':'] ++ dec 2 '0' tm.sec ++ [' '] ++ ampm tm
  | 'u' => dec 1 ' ' (if tm.wday = 0 then 7 else tm.wday)
  | 'w' => dec 1 ' ' tm.wday
  | 'Z' => []
  | 'n' => ['\n']
  | 't' => ['\t']
  | '%' => ['%']
  | c => ['%', c]

/-- `Text tm fmt T`: format `fmt` expands to `T`. `E` and `O` modifiers are ignored; a format that
ends inside a conversion yields a percent sign. -/
inductive Text (tm : Tm) : List Char → List Char → Prop
  | nil : Text tm [] []
  | lit {c s t} : c ≠ '%' → Text tm s t → Text tm (c :: s) (c :: t)
  | conv {c s t} : c ≠ 'E' → c ≠ 'O' → Text tm s t → Text tm ('%' :: c :: s) (conv tm c ++ t)
  | modified {m c s t} : m = 'E' ∨ m = 'O' → Text tm s t → Text tm ('%' :: m :: c :: s) (Time.conv tm c ++ t)
  | bare : Text tm ['%'] ['%']
  | bareModified {m} : m = 'E' ∨ m = 'O' → Text tm ['%', m] ['%']

end Verif.Time
