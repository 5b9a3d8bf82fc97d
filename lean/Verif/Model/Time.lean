/-
Model of the calendar conversions.
Source: eoxmagmod/eoxmagmod/include/time_conversion.h

C `int` is modelled by unbounded integers with the truncating division and
remainder of C (`Int.tdiv`, `Int.tmod`); that no 32-bit overflow happens in the
range of interest is a theorem of its own (Props/Time.lean).  Doubles are
elements of an exact ordered field with a floor function, plus NaN and
infinities (`X K`).
-/
import Verif.Model.XFloat
import Mathlib.Algebra.Order.Floor.Defs
import Mathlib.Algebra.Order.Floor.Ring
import Mathlib.Algebra.Order.Field.Basic

namespace Verif.Time

/-- Common part of `mjd2k_to_date` and `mjd2k_to_year`: `e__` as a function of
`day2k`; time_conversion.h lines 44-48 and 66-70. -/
def eVal (day2k : Int) : Int :=
  let d := day2k + 2451545
  let f0 := d + 1401
  let f := f0 + (if d > 2299160 then ((((4 * d + 274277).tdiv 146097) * 3).tdiv 4) - 38 else 0)
  4 * f + 3

/-- `h__`, lines 49 and 71. -/
def hVal (day2k : Int) : Int := 5 * (((eVal day2k).tmod 1461).tdiv 4) + 2

/-- month, lines 51 and 72. -/
def monthOf (day2k : Int) : Int := ((hVal day2k).tdiv 153 + 2).tmod 12 + 1

/-- day of month, line 50. -/
def dayOf (day2k : Int) : Int := ((hVal day2k).tmod 153).tdiv 5 + 1

/-- year, lines 52 and 73. -/
def yearOf (day2k : Int) : Int :=
  (eVal day2k).tdiv 1461 - 4716 + (14 - monthOf day2k).tdiv 12

/-- `mjd2k_year_start`, lines 89-92. -/
def yearStart (year : Int) : Int :=
  let y := year + 4799
  365 * y + y.tdiv 4 - 2483321 + (if year > 1582 then 1 else 0) * (y.tdiv 400 - y.tdiv 100 + 38)

/-- `is_leap_year`, lines 101-103. -/
def isLeapYear (year : Int) : Bool :=
  (year.tmod 4 == 0) && ((year.tmod 100 != 0) || (year.tmod 400 == 0) || decide (year ≤ 1582))

/-- `days_per_year`, lines 113-115. -/
def daysPerYear (year : Int) : Int := 365 + (if isLeapYear year then 1 else 0)

section
variable {K : Type} [Field K] [LinearOrder K]

/-- `years_per_day`, lines 125-127. -/
def yearsPerDay (year : Int) : K := if isLeapYear year then 1 / 366 else 1 / 365

variable [FloorRing K]

/-- `mjd2k_to_date`, lines 43-54: year, month, day, hours. -/
def mjd2kToDate (t : K) : Int × Int × Int × K :=
  let day2k := ⌊t⌋
  (yearOf day2k, monthOf day2k, dayOf day2k, 24 * (t - (day2k : K)))

/-- `mjd2k_to_year`, lines 65-74. -/
def mjd2kToYear (t : K) : Int := yearOf ⌊t⌋

/-- `mjd2k_to_decimal_year`, lines 136-139, for finite times. -/
def mjd2kToDecimalYear (t : K) : K :=
  let year := mjd2kToYear t
  (year : K) + (t - (yearStart year : K)) * yearsPerDay year

/-- `mjd2k_to_year_fraction`, lines 149-152, for finite times. -/
def mjd2kToYearFraction (t : K) : K :=
  let year := mjd2kToYear t
  (t - (yearStart year : K)) * yearsPerDay year

/-- `decimal_year_to_mjd2k`, lines 161-169, the finite branch. -/
def decimalYearToMjd2k (dy : K) : K :=
  let wholeYear := ⌊dy⌋
  let year := wholeYear
  (yearStart year : K) + (dy - (wholeYear : K)) * (daysPerYear year : K)

/-- `mjd2k_to_decimal_year` on any double.  For NaN and infinities the C
conversion to `int` has no defined value: `junk` is whatever integer comes out. -/
def mjd2kToDecimalYearX (junk : Int) : X K → X K
  | .fin t => .fin (mjd2kToDecimalYear t)
  | x => X.add (.fin (yearOf junk : K))
      (X.mul (X.sub x (.fin (yearStart (yearOf junk) : K))) (.fin (yearsPerDay (yearOf junk))))

/-- `mjd2k_to_year_fraction` on any double. -/
def mjd2kToYearFractionX (junk : Int) : X K → X K
  | .fin t => .fin (mjd2kToYearFraction t)
  | x => X.mul (X.sub x (.fin (yearStart (yearOf junk) : K))) (.fin (yearsPerDay (yearOf junk)))

/-- `decimal_year_to_mjd2k` on any double (`isfinite` test, line 162). -/
def decimalYearToMjd2kX : X K → X K
  | .fin dy => .fin (decimalYearToMjd2k dy)
  | x => x

/-- `mjd2000_to_decimal_year_simple`, time_util.py lines 47-52. -/
def mjd2000ToDecimalYearSimple (t : K) : K := 2000 + t / (36525 / 100)

/-- `decimal_year_to_mjd2000_simple`, time_util.py lines 64-69. -/
def decimalYearToMjd2000Simple (dy : K) : K := (dy - 2000) * (36525 / 100)

/-- `mjd2000_to_year_fraction_simple`, time_util.py lines 55-61. -/
def mjd2000ToYearFractionSimple (t : K) : K :=
  let y := t / (36525 / 100)
  y - (⌊y⌋ : K)

end

end Verif.Time
