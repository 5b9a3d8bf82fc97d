/-
Model of the magnetic local time and of the sub-solar point.
Source: qdipole/eval_mlt.f90, qdipole/eval_subsol.f90, qdipole/apex.f90 (SUBSOL, MAGLOCTM, SOLGMLON, TMJD, TJUDA, DYPOL)

Numbers are elements of a field `K` with a floor function, the functions of libm are parameters.
Not modelled: the rounding of single precision, except for the epoch (`sngl`), NaN and infinite
arguments except for the test of the epoch, overflow of the default INTEGER.  The literal degrees to
radians factors are the exact ones.  Of the main field only the degree one is modelled.  The Fortran `STOP`, which ends the process, is `none`.
-/
import Verif.Model.Geo
import Verif.Model.Qd
import Mathlib.Algebra.Order.Floor.Defs
import Mathlib.Algebra.Order.Floor.Ring
import Mathlib.Algebra.Order.Field.Basic

set_option linter.unusedSectionVars false

namespace Verif.Mlt

open Verif.Geo

/-! ### Calendar with integers -/

/-- Date of the day `i` since 1950-01-01, TMJD, apex.f90 lines 2900-2906 (`DJ2000.FOR`). -/
def dateFast (i : Int) : Int × Int × Int :=
  let l := (4000 * (i + 18204)).tdiv 1461001
  let n := i - (1461 * l).tdiv 4 + 18234
  let m := (80 * n).tdiv 2447
  let day := n - (2447 * m).tdiv 80
  let j := m.tdiv 11
  (1900 + l + j, m + 2 - 12 * j, day)

/-- Days since 2000-01-01 of a date, TMJD, apex.f90 lines 2885-2887 (`JD2000.FOR`). -/
def daysFast (year month day : Int) : Int :=
  let j := (14 - month).tdiv 12
  let l := year - j - 1900 * (year.tdiv 1900) + 100 * ((2000 : Int).tdiv (year + 1951))
  day - 36496 + (1461 * l).tdiv 4 + (367 * (month - 2 + j * 12)).tdiv 12

/-- Lengths of the months, TJUDA, apex.f90 lines 3029-3030, with the length of February. -/
def months (feb : Int) : List Int := [31, feb, 31, 30, 31, 30, 31, 31, 30, 31, 30, 31]

/-- Leap day dropped by the Gregorian calendar, TJUDA, apex.f90 lines 3068 and 3129. -/
def century (ja : Int) : Bool := ja.tmod 100 == 0 && ja.tmod 400 != 0

/-- Year, length of February and correction of the day of the year for the day `n` of the `j`-th period of
1461 days, TJUDA, apex.f90 lines 3056-3074. -/
def cycleYear (greg : Bool) (j n : Int) : Int × Int × Int :=
  if n ≥ 366 + 365 + 365 then (4 * j + 3 - 4712, 28, 366 + 365 + 365)
  else if n ≥ 366 + 365 then (4 * j + 2 - 4712, 28, 366 + 365)
  else if n ≥ 366 then (4 * j + 1 - 4712, 28, 366)
  else if greg && century (4 * j - 4712) then (4 * j - 4712, 28, if n > 59 then 1 else 0)
  else (4 * j - 4712, 29, 0)

/-- Days of the centuries, TJUDA, apex.f90 lines 3117-3130: the number `N` at the start of the year and the length of February. -/
def yearDays (ja mo tag : Int) : Int × Int :=
  let j := ja - 1
  let n := (j + 4713) * 365 + (j + 4716).tdiv 4
  let feb := if ja.tmod 4 == 0 then 29 else 28
  if ja > 1582 || (ja == 1582 && mo > 10) || (ja == 1582 && mo == 10 && tag ≥ 15) then
    (n - j.tdiv 100 + j.tdiv 400 + 2, if century ja then 28 else feb)
  else (n, feb)

/-- Number of a year without year zero and its inverse, TJUDA, apex.f90 lines 3088-3092 and 3099-3103. -/
def civilYear (ja : Int) : Int := if ja > 0 then ja else ja - 1
def astroYear (jahr : Int) : Int := if jahr > 0 then jahr else jahr + 1

section
variable {K : Type} [Field K] [LinearOrder K] [FloorRing K]

/-- Fortran `INT`. -/
def trunc (x : K) : Int := if 0 ≤ x then ⌊x⌋ else -⌊-x⌋

/-- Fortran `NINT`: ties away from zero. -/
def nint (x : K) : Int := if 0 ≤ x then ⌊x + 1 / 2⌋ else -⌊-x + 1 / 2⌋

/-! ### Dates and times -/

/-- Number of the month: the loop of TJUDA, apex.f90 lines 3077-3081.
`none` is the access to the 13th month. -/
def monthLoop : List Int → Int → K → Option (Int × K)
  | [], _, _ => none
  | l :: ls, mo, d => if trunc d ≥ l then monthLoop ls (mo + 1) (d - (l : K)) else some (mo, d)

/-- Correction of the Julian date for the Gregorian calendar, TJUDA, apex.f90 lines 3037-3048. -/
def julianDays (jd : K) : K :=
  if jd ≥ 2299160 + 1 / 2 then
    let j := (trunc (jd - (1721119 + 1 / 2))).tdiv 146097
    let d := jd + ((3 * j : Int) : K)
    let c := min ((trunc (jd - (1721119 + 1 / 2)) - j * 146097).tdiv 36524) 3
    d + (c : K) - (1 + 1 / 2)
  else jd + 1 / 2

/-- TJUDA with `FLAG` zero: the date of a Julian date, apex.f90 lines 3032-3092.  The output `HOUR` is not used by the callers. -/
def tjudaDate (jd : K) : Option (Int × Int × Int) :=
  let d := julianDays jd
  let j := (trunc d).tdiv (4 * 365 + 1)
  let d := d - ((j * (4 * 365 + 1) : Int) : K)
  let c := cycleYear (decide (jd ≥ 2299160 + 1 / 2)) j (trunc d)
  (monthLoop (months c.2.1) 1 (d - (c.2.2 : K))).map fun r => (civilYear c.1, r.1, trunc r.2 + 1)

/-- TJUDA with `FLAG` one and `HOUR` zero: the Julian date of a date, apex.f90 lines 3099-3140.
Simplification: the months are 1 to 12, the loops of lines 3107-3114 normalising other ones are left out. -/
def tjudaJd (jahr monat tag : Int) : K :=
  let ja := astroYear jahr
  let y := yearDays ja monat tag
  let n := y.1 + ((months y.2).take (monat - 1).toNat).sum
  ((n + tag : Int) : K) - (1 + 1 / 2)

/-- The Julian date of 2000-01-01, `JD0`, apex.f90 line 2873. -/
def jd0 : K := 2451544 + 1 / 2

/-- TMJD with `FLAG` one, apex.f90 lines 2883-2893. -/
def tmjdFwd (year month day hour minute : Int) (sec : K) : K :=
  let i := if year ≥ 1950 && year < 2100 then daysFast year month day else nint (tjudaJd year month day - jd0 : K)
  (i : K) + sec / 86400 + (minute : K) / 1440 + (hour : K) / 24

/-- Date and hours of a day, TMJD, apex.f90 lines 2897-2913. -/
def tmjdDay (mjd : K) : Option (Int × Int × Int × K) :=
  if mjd > -18262 && mjd < 36525 then
    let i := trunc (mjd + 18262)
    let d := dateFast i
    some (d.1, d.2.1, d.2.2, (mjd - ((i - 18262 : Int) : K)) * 24)
  else (tjudaDate (mjd + jd0)).map fun d =>
    let i := nint (tjudaJd d.1 d.2.1 d.2.2 - jd0 : K)
    (d.1, d.2.1, d.2.2, (mjd - (i : K)) * 24)

/-- A civil date and time. -/
structure Civil (K : Type) where
  year : Int
  month : Int
  day : Int
  hour : Int
  minute : Int
  sec : K

/-- TMJD with `FLAG` minus one, apex.f90 lines 2897-2925; the rounding of the seconds to the significant
decimals, lines 2920-2925, is left out. -/
def tmjdInv (mjd : K) : Option (Civil K) :=
  (tmjdDay mjd).map fun r =>
    let hours := r.2.2.2
    let hour := trunc hours
    let mins := (hours - (hour : K)) * 60
    let minute := trunc mins
    ⟨r.1, r.2.1, r.2.2.1, hour, minute, (mins - (minute : K)) * 60⟩

/-! ### Sub-solar point -/

/-- Number of leap days since 2000, SUBSOL, apex.f90 lines 2647-2661; `none` is `STOP`. -/
def nleap (iyr : Int) : Option Int :=
  let n := (iyr - 1601).tdiv 4 - 99
  if iyr ≤ 1900 then
    if iyr ≤ 1600 then none
    else some (n + (3 - (iyr - 1601).tdiv 100))
  else if iyr ≥ 2101 then none
  else some n

/-- Mean longitude, mean anomaly (degrees), seconds of the day and days since 2000-01-01 12:00,
SUBSOL, apex.f90 lines 2671-2699 and 2708. -/
def meanSun (yr nl iday ihr imn : Int) (sec : K) : K × K × K × K :=
  let l0 : K := -79549 / 1000 + (-238699 / 1000000 * ((yr - 4 * nl : Int) : K) + 308514 / 10000000 * (nl : K))
  let g0 : K := -2472 / 1000 + (-2558905 / 10000000 * ((yr - 4 * nl : Int) : K) - 379617 / 10000000 * (nl : K))
  let ut : K := ((ihr * 3600 + imn * 60 : Int) : K) + sec
  let df := (ut / 86400 - (1 + 1 / 2)) + (iday : K)
  let lf := 9856474 / 10000000 * df
  let gf := 9856003 / 10000000 * df
  (l0 + lf, g0 + gf, ut, df + ((365 * yr + nl : Int) : K))

/-- Right ascension and declination in degrees, SUBSOL, apex.f90 lines 2700-2721. -/
def equatorial (L : Libm K) (l g n : K) : K × K :=
  let d2r := dg2rad L
  let r2d := rad2dg L
  let grad := g * d2r
  let lambda := l + 1915 / 1000 * L.sin grad + 20 / 1000 * L.sin (2 * grad)
  let lamrad := lambda * d2r
  let sinlam := L.sin lamrad
  let epsilon := 23439 / 1000 - 4 / 10000000 * n
  let epsrad := epsilon * d2r
  (L.atan2 (L.cos epsrad * sinlam) (L.cos lamrad) * r2d, L.asin (L.sin epsrad * sinlam) * r2d)

/-- Reduction of an angle in degrees, SUBSOL, apex.f90 lines 2725-2726 and 2734-2735. -/
def reduce360 (x : K) : K := x - ((360 * nint (x / 360) : Int) : K)

/-- SUBSOL, apex.f90 lines 2604-2738: latitude and longitude in degrees. -/
def subsol (L : Libm K) (iyr iday ihr imn : Int) (sec : K) : Option (K × K) :=
  (nleap iyr).map fun nl =>
    let s := meanSun (iyr - 2000) nl iday ihr imn sec
    let e := equatorial L s.1 s.2.1 s.2.2.2
    let etdeg := reduce360 (s.1 - e.1)
    let aptime := s.2.2.1 / 240 + etdeg
    (e.2, reduce360 (180 - aptime))

/-- Day of the year of a time, eval_subsol.f90 lines 57-59 and eval_mlt.f90 lines 65-67. -/
def dayOfYear (t : K) (year : Int) : Int := trunc t - nint (tmjdFwd year 1 1 0 0 0 : K) + 1

/-- One pass of the loop of `eval_subsol`, eval_subsol.f90 lines 54-64. -/
def subsolAt (L : Libm K) (t : K) : Option (K × K) :=
  (tmjdInv t).bind fun c => subsol L c.year (dayOfYear t c.year) c.hour c.minute c.sec

/-- `eval_subsol`, eval_subsol.f90 lines 44-68. -/
def evalSubsol (L : Libm K) : List K → Option (List (K × K))
  | [] => some []
  | t :: ts => (subsolAt L t).bind fun r => (evalSubsol L ts).map fun rs => r :: rs

/-! ### Magnetic local time -/

/-- SOLGMLON, apex.f90 lines 2806-2847. -/
def solgmlon (L : Libm K) (xlat xlon colat elon : K) : K :=
  let dtor := dg2rad L
  let ctp := L.cos (colat * dtor)
  let stp := L.sqrt (1 - ctp * ctp)
  let ang := (xlon - elon) * dtor
  let cang := L.cos ang
  let sang := L.sin ang
  let cte := L.sin (xlat * dtor)
  let ste := L.sqrt (1 - cte * cte)
  let stfcpa := ste * ctp * cang - cte * stp
  let stfspa := sang * ste
  L.atan2 stfspa stfcpa * rad2dg L

/-- MAGLOCTM, apex.f90 lines 2778-2784. -/
def magloctm (L : Libm K) (alon sbsllat sbsllon clatp polon : K) : K :=
  let smlon := solgmlon L sbsllat sbsllon clatp polon
  let mlt := (alon - smlon) / 15 + 12
  let mlt := if mlt ≥ 24 then mlt - 24 else mlt
  if mlt < 0 then mlt + 24 else mlt

/-- DYPOL, apex.f90 lines 2430-2434: colatitude and longitude of the dipole pole from the first three
coefficients of the field (`GB(2)`, `GB(3)`, `GB(4)`); `acos` is a parameter. -/
def dypol (L : Libm K) (acos : K → K) (gb2 gb3 gb4 : K) : K × K :=
  let gpl := L.sqrt (gb2 * gb2 + gb3 * gb3 + gb4 * gb4)
  let ctp := gb2 / gpl
  (acos ctp * rad2dg L, L.atan2 gb4 gb3 * rad2dg L)

/-- The degree one of the table of the main field: epochs, coefficients (g10, g11, h11) at the epochs and their yearly
changes after the last epoch, COFRM, apex.f90 lines 910-2336. -/
structure MainField (K : Type) where
  epochs : List K
  coef : Nat → K × K × K
  rate : K × K × K

/-- Number of the epochs before the first epoch after the date, COFRM, apex.f90 lines 2348-2352 (`IY`). -/
def epochIndex (date : K) : List K → Nat
  | [] => 0
  | e :: es => if date < e then 0 else epochIndex date es + 1

/-- One coefficient, COFRM, apex.f90 lines 2368-2370 and 2377-2385: the value at the epoch `IY`, the next one or the yearly change.
Simplification: the date is finite. -/
def coefAt (last : Bool) (a b r t f : K) : K :=
  if last then (a + r * t) * f else (a + (b - a) * (t / 5)) * f

/-- COFRM, apex.f90 lines 2339-2398: the coefficients `GB(2)`, `GB(3)`, `GB(4)` for a date, `none` is `EXIT`.
The factors of the degree one are all `F0` = -0.5e-5 (`F` is `F0` divided by the root of two and by the root of one half).
The result does not depend on the earlier calls (lines 2340-2341 skip the calculation for the date of the last one).
An infinite date is left out. -/
def cofrm (T : MainField K) (date : K) : Option (K × K × K) :=
  match T.epochs with
  | [] => none
  | e :: _ =>
    if date < e then none
    else
      let iy := epochIndex date T.epochs
      let t := date - (T.epochs[iy - 1]?).getD 0
      let last := decide (iy = T.epochs.length)
      let f0 : K := -1 / 100000 * 1 / 2
      let a := T.coef (iy - 1)
      let b := T.coef iy
      some (coefAt last a.1 b.1 T.rate.1 t f0, coefAt last a.2.1 b.2.1 T.rate.2.1 t f0,
        coefAt last a.2.2 b.2.2 T.rate.2.2 t f0)

/-- Parameters of the magnetic local time: libm, `acos`, conversion to single precision and the main field. -/
structure Env (K : Type) where
  L : Libm K
  acos : K → K
  sngl : K → K
  field : MainField K

/-- Epoch of a time, eval_mlt.f90 line 53. -/
def epochOf (E : Env K) (t : K) : K := E.sngl (t / (36525 / 100) + 2000)

/-- Coefficients and pole, eval_mlt.f90 lines 56-60: the state is the pole (undefined at first) and `epoch_old`. -/
def refresh (E : Env K) (s : Option (K × K) × X K) (epoch : K) : Option (Option (K × K) × X K) :=
  if Qd.changed (.fin epoch) s.2 then (cofrm E.field epoch).map fun g => (some (dypol E.L E.acos g.1 g.2.1 g.2.2), .fin epoch)
  else some s

/-- One pass of the loop of `eval_mlt`, eval_mlt.f90 lines 52-74; `none` is `STOP` or the use of the undefined pole. -/
def mltStep (E : Env K) (s : Option (K × K) × X K) (qdlon t : K) : Option (K × (Option (K × K) × X K)) :=
  (refresh E s (epochOf E t)).bind fun s =>
    (subsolAt E.L t).bind fun r => s.1.map fun p => (magloctm E.L qdlon r.1 r.2 p.1 p.2, s)

/-- The loop over the points. -/
def mltLoop (E : Env K) : List (K × K) → Option (K × K) × X K → Option (List K)
  | [], _ => some []
  | p :: ps, s => (mltStep E s p.1 p.2).bind fun r => (mltLoop E ps r.2).map fun rs => r.1 :: rs

/-- `eval_mlt`, eval_mlt.f90 lines 35-78; the points are pairs of the longitude and the time. -/
def evalMlt (E : Env K) (ps : List (K × K)) : Option (List K) := mltLoop E ps (none, Qd.epochNone)

end

end Verif.Mlt
