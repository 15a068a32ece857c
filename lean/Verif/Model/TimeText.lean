import Verif.Model.Basic

/-! # Times as text: `time::toIsoString` and `time::fromIsoString`

`CaSqlite` keeps the time stamp of a challenge as text (ca-sqlite.cpp:150, 186, 212). ndn-cxx uses boost::posix_time for it, with a
resolution of microseconds. -/

namespace Ndncert

/-- year, month and day of a day number (`gregorian_calendar_base::from_day_number` of boost) -/
def ymdOfDay (dayNumber : Nat) : Nat × Nat × Nat :=
  let a := dayNumber + 32044
  let b := (4 * a + 3) / 146097
  let c := a - (146097 * b) / 4
  let d := (4 * c + 3) / 1461
  let e := c - (1461 * d) / 4
  let m := (5 * e + 2) / 153
  (100 * b + d - 4800 + m / 10, m + 3 - 12 * (m / 10), e + 1 - (153 * m + 2) / 5)

/-- `gregorian_calendar_base::day_number` -/
def dayOfYmd (year month day : Nat) : Nat :=
  let a := (14 - month) / 12
  let y := year + 4800 - a
  let m := month + 12 * a - 3
  day + (153 * m + 2) / 5 + 365 * y + y / 4 - y / 100 + y / 400 - 32045

/-- `is_leap_year` -/
def isLeapYear (year : Nat) : Bool := year % 4 == 0 && (year % 100 != 0 || year % 400 == 0)

/-- `end_of_month_day` -/
def endOfMonth (year month : Nat) : Nat :=
  if month = 2 then (if isLeapYear year then 29 else 28)
  else if month = 4 ∨ month = 6 ∨ month = 9 ∨ month = 11 then 30
  else 31

/-- `n` in decimal, the last `width` digits (`setw(width) << setfill('0')`; all numbers written have at most that many) -/
def decimalPad : Nat → Nat → Bytes
  | 0, _ => []
  | w + 1, n => decimalPad w (n / 10) ++ [UInt8.ofNat (48 + n % 10)]

/-- day number of 1 January 1970 -/
def epochDay : Int := 2440588

/-- microseconds in a day -/
def usPerDay : Int := 86400000000

/-- `time::toIsoString` of a time in microseconds since 1970: `YYYYMMDDTHHMMSS`, and the fraction of the second if it is not zero.
`none`: boost's dates are from 1 January 1400 to 31 December 9999, others throw. The year always has four digits. -/
def toIsoText (us : Int) : Option Bytes :=
  let day := us / usPerDay + epochDay
  if day < 2232400 ∨ 5373484 < day then none
  else
    let (y, m, d) := ymdOfDay day.toNat
    let t := (us % usPerDay).toNat
    let frac := t % 1000000
    let s := t / 1000000
    some (decimalPad 4 y ++ decimalPad 2 m ++ decimalPad 2 d ++ [84] ++ decimalPad 2 (s / 3600) ++ decimalPad 2 (s / 60 % 60) ++ decimalPad 2 (s % 60) ++
      (if frac = 0 then [] else 46 :: decimalPad 6 frac))

/-- a number of decimal digits -/
def readDecimal (s : Bytes) : Option Nat :=
  if s.all (fun b => 48 ≤ b && b ≤ 57) then some (s.foldl (fun v b => 10 * v + (b.toNat - 48)) 0) else none

/-- `time::fromIsoString`; `none` = throws. Simplification: only the layout `toIsoText` writes is read, boost reads others as well. A point or
a comma separates the fraction. -/
def fromIsoText (s : Bytes) : Option Int := do
  let y ← readDecimal (s.take 4)
  let m ← readDecimal ((s.drop 4).take 2)
  let d ← readDecimal ((s.drop 6).take 2)
  let h ← readDecimal ((s.drop 9).take 2)
  let n ← readDecimal ((s.drop 11).take 2)
  let sec ← readDecimal ((s.drop 13).take 2)
  if s.length < 15 ∨ (s.drop 8).head? ≠ some 84 then none
  else if y < 1400 ∨ 9999 < y ∨ m < 1 ∨ 12 < m ∨ d < 1 ∨ endOfMonth y m < d then none
  else
    let frac ← (match s.drop 15 with
      | [] => some 0
      | b :: f => if (b = 46 ∨ b = 44) ∧ f.length = 6 then readDecimal f else none : Option Nat)
    some (((dayOfYmd y m d : Int) - epochDay) * usPerDay + (((h * 60 + n) * 60 + sec) * 1000000 + frac : Nat))

end Ndncert
