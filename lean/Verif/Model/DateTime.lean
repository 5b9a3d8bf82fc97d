/-
Model of the decimal year of `datetime` objects.
Source: eoxmagmod/eoxmagmod/time_util.py

The `datetime` class of Python's standard library is modelled by its documented
behaviour: years 1 to 9999 of the proleptic Gregorian calendar, differences by
ordinals (`date.toordinal`), no leap seconds, `ValueError` for a year out of the range,
`TypeError` for the difference of a naive and an aware object.
-/
import Verif.Model.XFloat
import Mathlib.Algebra.Field.Defs

namespace Verif.DateTime

/-- Raised exceptions. -/
inductive Err where
  | valueError
  | typeError
deriving DecidableEq, Repr

/-- Fields of a `datetime.datetime` object. -/
structure Fields where
  year : Int
  month : Int
  day : Int
  hour : Int
  minute : Int
  second : Int
  microsecond : Int
deriving DecidableEq, Repr

/-- The argument: anything else, or a `datetime` without or with a time zone. -/
inductive Arg where
  | other
  | naive (f : Fields)
  | aware (f : Fields)

/-- Leap years of the proleptic Gregorian calendar (`calendar.isleap`). -/
def isLeap (y : Int) : Bool := y % 4 == 0 && (y % 100 != 0 || y % 400 == 0)

/-- Days of the year before the first of the month. -/
def daysBeforeMonth (y m : Int) : Int :=
  (if m ≤ 1 then 0 else if m ≤ 2 then 31 else if m ≤ 3 then 59 else if m ≤ 4 then 90
    else if m ≤ 5 then 120 else if m ≤ 6 then 151 else if m ≤ 7 then 181 else if m ≤ 8 then 212
    else if m ≤ 9 then 243 else if m ≤ 10 then 273 else if m ≤ 11 then 304 else 334) +
  (if m > 2 && isLeap y then 1 else 0)

/-- `date.toordinal`: 0001-01-01 is day 1. -/
def toOrdinal (y m d : Int) : Int :=
  (y - 1) * 365 + (y - 1) / 4 - (y - 1) / 100 + (y - 1) / 400 + daysBeforeMonth y m + d

/-- Microseconds since the start of the day 0. -/
def micros (f : Fields) : Int :=
  ((toOrdinal f.year f.month f.day * 24 + f.hour) * 60 + f.minute) * 60 * 1000000 +
    f.second * 1000000 + f.microsecond

/-- `datetime(year=year, month=1, day=1)` -/
def newYear (year : Int) : Except Err Fields :=
  if 1 ≤ year ∧ year ≤ 9999 then .ok ⟨year, 1, 1, 0, 0, 0, 0⟩ else .error .valueError

section
variable {K : Type} [Field K]

/-- `(a - b).total_seconds()` -/
def totalSeconds (a b : Fields) : K := ((micros a - micros b : Int) : K) / 1000000

/-- `datetime_to_decimal_year`, time_util.py lines 75-88. -/
def datetimeToDecimalYear : Arg → Except Err K
  | .other => .error .typeError
  | .naive time => do
    let yearStart ← newYear time.year
    let nextYearStart ← newYear (time.year + 1)
    let yearElapsed := totalSeconds time yearStart
    let yearTotal := totalSeconds nextYearStart yearStart
    return (time.year : K) + yearElapsed / yearTotal
  | .aware time => do
    let _ ← newYear time.year
    let _ ← newYear (time.year + 1)
    .error .typeError
end

end Verif.DateTime
