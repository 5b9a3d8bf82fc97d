/-
Model of the time conversions and of the linear interpolation with the rounding of each
arithmetic operation.
Source: eoxmagmod/eoxmagmod/include/time_conversion.h, interpolation.h, time_util.py,
magnetic_model/parser_mma.py

`rnd` is applied to the result of every operation with doubles, in the order of the C
expressions (no contraction to fused operations, no excess precision).  The conversions of
`int` to `double` and `floor` are exact.  With `rnd = id` these are the functions of
Model/Time.lean, Model/Interp.lean, Model/DateTime.lean and Model/Mma.lean.
-/
import Verif.Model.Time
import Verif.Model.Interp
import Verif.Model.DateTime

namespace Verif.FloatTime

open Verif.Time

section
variable {K : Type} [Field K] [LinearOrder K] [FloorRing K] (rnd : K → K)

/-- `years_per_day`, time_conversion.h lines 125-127: rounded constants. -/
def yearsPerDayF (year : Int) : K := rnd (if isLeapYear year then 1 / 366 else 1 / 365)

/-- `mjd2k_to_year_fraction`, time_conversion.h lines 149-152. -/
def yearFractionF (t : K) : K :=
  let year := mjd2kToYear t
  rnd (rnd (t - (yearStart year : K)) * yearsPerDayF rnd year)

/-- `mjd2k_to_decimal_year`, time_conversion.h lines 136-139. -/
def decimalYearF (t : K) : K :=
  let year := mjd2kToYear t
  rnd ((year : K) + rnd (rnd (t - (yearStart year : K)) * yearsPerDayF rnd year))

/-- `decimal_year_to_mjd2k`, time_conversion.h lines 161-169, the finite branch. -/
def toMjd2kF (dy : K) : K :=
  let wholeYear := ⌊dy⌋
  let year := wholeYear
  rnd ((yearStart year : K) + rnd (rnd (dy - (wholeYear : K)) * (daysPerYear year : K)))

/-- `mjd2k_to_date`, time_conversion.h lines 43-54. -/
def dateF (t : K) : Int × Int × Int × K :=
  let day2k := ⌊t⌋
  (yearOf day2k, monthOf day2k, dayOf day2k, rnd (24 * rnd (t - (day2k : K))))

end

section
variable {K : Type} [Field K] [LinearOrder K] (rnd : K → K)

open Verif.Bisect Verif.Interp

/-- `get_interp1_basis` and `interp1_eval`, interpolation.h lines 92-101, 138-140, for finite
numbers: interpolation of the series `c` with the nodes `v` at `x`. -/
def interp1F (x : K) (v c : List K) : Option K := do
  let idx0 ← bisectRightP (fun a => decide (a ≤ x)) v
  let idx := clip idx0 0 (sizeSub v.length 2)
  let v0 ← rd v idx
  let v1 ← rd v (idx + 1)
  let alpha := rnd (rnd (x - v0) / rnd (v1 - v0))
  let b0 := rnd (1 - alpha)
  let c0 ← rd c idx
  let c1 ← rd c (idx + 1)
  return rnd (rnd (b0 * c0) + rnd (alpha * c1))

end

section
variable {K : Type} [Field K] (rnd : K → K)

open Verif.DateTime

/-- `(a - b).total_seconds()`: division of the integer number of microseconds. -/
def totalSecondsF (a b : Fields) : K := rnd (((micros a - micros b : Int) : K) / 1000000)

/-- `datetime_to_decimal_year`, time_util.py lines 75-88, of a naive object. -/
def datetimeF (time : Fields) : Except Err K := do
  let yearStart ← newYear time.year
  let nextYearStart ← newYear (time.year + 1)
  let yearElapsed := totalSecondsF rnd time yearStart
  let yearTotal := totalSecondsF rnd nextYearStart yearStart
  return rnd ((time.year : K) + rnd (yearElapsed / yearTotal))

/-- `_cdf_rawtime_to_mjd2000`, parser_mma.py lines 136-141 (constants lines 42-43). -/
def epochF (raw : K) : K := rnd (rnd (raw - 63113904000000) * rnd (1 / 86400000))

end

end Verif.FloatTime
