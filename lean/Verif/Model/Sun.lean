/-
Model of the position of the Sun.
Source: eoxmagmod/eoxmagmod/include/sun_ephemeris.h, pysunpos.h, pysunpos_original.h

Doubles are elements of an exact ordered field with a floor function, `libm` is a parameter
(`tan` separately).
-/
import Verif.Model.Geo
import Verif.Model.Time

namespace Verif.Sun

open Verif.Geo Verif.Time

variable {K : Type} [Field K] [LinearOrder K] [FloorRing K] (L : Libm K)

/-- C conversion of a double to `int`: truncation. -/
def toInt (x : K) : Int := if 0 ≤ x then ⌊x⌋ else ⌈x⌉

/-- `FMOD_FLOOR`, sun_ephemeris.h line 57. -/
def fmodFloor (a b : K) : K := a - b * (⌊a / b⌋ : Int)

/-- The days of the date in `date_to_sunposmjd2k` (lines 75-82) and `sunpos5original` (lines
121-128). -/
def dateDays (year month day : Int) : Int :=
  let mt := month + 12 * (if month ≤ 2 then 1 else 0)
  let yt := year - (if month ≤ 2 then 1 else 0)
  toInt (36525 / 100 * ((yt - 2000 : Int) : K)) + toInt (306001 / 10000 * ((mt + 1 : Int) : K)) -
    toInt (1 / 100 * (yt : K)) + day

/-- `date_to_sunposmjd2k`, lines 74-83. -/
def dateToSunposMjd2k (year month day : Int) (hours : K) : K :=
  (dateDays (K := K) year month day : K) + 1 / 24 * hours - 43

/-- `l`, `nu`, `dlam`, `lambda` and `epsi` as functions of `te`: lines 130-152 of
`sunpos5original` and lines 220-240 of `sunpos5equat`, which are the same; returns `dlam`,
`lambda` and `epsi`. -/
def ecliptic (te : K) : K × K × K :=
  let wte := 172019715 / 10 ^ 10 * te
  let s1 := L.sin wte
  let c1 := L.cos wte
  let s2 := 2 * s1 * c1
  let c2 := (c1 + s1) * (c1 - s1)
  let s3 := s2 * c1 + c2 * s1
  let c3 := c2 * c1 - s2 * s1
  let l := 17527901 / 10 ^ 7 + 17202792159 / 10 ^ 12 * te + 333024 / 10 ^ 7 * s1 - 20582 / 10 ^ 7 * c1 +
    3512 / 10 ^ 7 * s2 - 407 / 10 ^ 7 * c2 + 52 / 10 ^ 7 * s3 - 9 / 10 ^ 7 * c3 -
    823 / 10 ^ 7 * s1 * L.sin (292 / 10 ^ 7 * te) + 127 / 10 ^ 7 * L.sin (149 / 10 ^ 5 * te - 2337 / 1000) +
    121 / 10 ^ 7 * L.sin (431 / 10 ^ 5 * te + 3065 / 1000) + 233 / 10 ^ 7 * L.sin (1076 / 10 ^ 5 * te - 1533 / 1000) +
    349 / 10 ^ 7 * L.sin (1575 / 10 ^ 5 * te - 2358 / 1000) + 267 / 10 ^ 7 * L.sin (2152 / 10 ^ 5 * te + 74 / 1000) +
    128 / 10 ^ 7 * L.sin (3152 / 10 ^ 5 * te + 1547 / 1000) + 314 / 10 ^ 7 * L.sin (21277 / 10 ^ 5 * te - 488 / 1000)
  let nu := 9282 / 10 ^ 7 * te - 8 / 10
  let dlam := 834 / 10 ^ 7 * L.sin nu
  (dlam, l + L.pi + dlam, 4089567 / 10 ^ 7 - 619 / 10 ^ 11 * te + 446 / 10 ^ 7 * L.cos nu)

/-- Declination, right ascension and hour angle [rad]: `sunpos5equat`, lines 213-260. -/
def sunpos5equat (mjd2k dtt lon : K) : K × K × K :=
  let t := mjd2k + 43 - 21958
  let te := 1 / 86400 * dtt + t
  let (dlam, lambda, epsi) := ecliptic L te
  let sl := L.sin lambda
  let cl := L.cos lambda
  let se := L.sin epsi
  let ce := L.sqrt (1 - se * se)
  let rasc0 := L.atan2 (sl * ce) cl
  let rasc := rasc0 + (if rasc0 < 0 then 2 * L.pi else 0)
  let decl := L.asin (sl * se)
  let hang0 := 17528311 / 10 ^ 7 + 6300388099 / 10 ^ 9 * t + lon - rasc + 92 / 100 * dlam
  let hang := fmodFloor (hang0 + L.pi) (2 * L.pi) - L.pi
  (decl, rasc, hang)

/-- Azimuth and zenith angle [rad]: `sunpos5eq2hor`, lines 289-314. -/
def sunpos5eq2hor (tan : K → K) (decl hang lat rad press temp : K) : K × K :=
  let sp := L.sin lat
  let cp := L.sqrt (1 - sp * sp)
  let sd := L.sin decl
  let cd := L.sqrt (1 - sd * sd)
  let sh := L.sin hang
  let ch := L.cos hang
  let se0 := sp * sd + cp * cd * ch
  let ep := L.asin se0 - L.sqrt (1 - se0 * se0) * rad * (1 / 149597871)
  let de := if press > 0 ∧ ep > 0 then
    (8422 / 10 ^ 5 * press) / ((273 + temp) * tan (ep + 3138 / 10 ^ 6 / (ep + 8919 / 10 ^ 5))) else 0
  let zenith := L.pi / 2 - ep - de
  let azimuth := L.atan2 sh (ch * sp - sd * cp / cd)
  (fmodFloor azimuth (2 * L.pi) - L.pi, zenith)

/-- `sunpos5original`, lines 116-187: declination, right ascension, hour angle, azimuth and zenith
angle [rad]. -/
def sunpos5original (tan : K → K) (year month day : Int) (hours lat lon rad dtt press temp : K) :
    K × K × K × K × K :=
  let t := (dateDays (K := K) year month day : K) + 1 / 24 * hours - 21958
  let te := t + 11574 / 10 ^ 9 * dtt
  let (dlam, lambda, epsi) := ecliptic L te
  let sl := L.sin lambda
  let cl := L.cos lambda
  let se := L.sin epsi
  let ce := L.sqrt (1 - se * se)
  let rasc0 := L.atan2 (sl * ce) cl
  let rasc := if rasc0 < 0 then rasc0 + 2 * L.pi else rasc0
  let decl := L.asin (sl * se)
  let hang0 := 17528311 / 10 ^ 7 + 6300388099 / 10 ^ 9 * t + lon - rasc + 92 / 100 * dlam
  let hang := fmodFloor (hang0 + L.pi) (2 * L.pi) - L.pi
  let sp := L.sin lat
  let cp := L.sqrt (1 - sp * sp)
  let sd := L.sin decl
  let cd := L.sqrt (1 - sd * sd)
  let sh := L.sin hang
  let ch := L.cos hang
  let se0 := sp * sd + cp * cd * ch
  let ep := L.asin se0 - L.sqrt (1 - se0 * se0) * rad * (1 / 149597871)
  let de := if press > 0 ∧ ep > 0 then
    (8422 / 10 ^ 5 * press) / ((273 + temp) * tan (ep + 3138 / 10 ^ 6 / (ep + 8919 / 10 ^ 5))) else 0
  let zenith := L.pi / 2 - ep - de
  let azimuth := L.atan2 sh (ch * sp - sd * cp / cd)
  (decl, rasc, hang, fmodFloor azimuth (2 * L.pi) - L.pi, zenith)

/-- Solar coordinates in degrees. -/
structure SunPos (K : Type) where
  decl : K
  rasc : K
  hang : K
  azimuth : K
  zenith : K

/-- `DEG2RAD`, pysunpos.h line 45. -/
def deg2rad : K := L.pi / 180

/-- `RAD2DEG`, pysunpos.h line 41. -/
def rad2deg : K := 180 / L.pi

/-- `sunpos` of one point, pysunpos.h lines 80-95. -/
def sunpos (tan : K → K) (mjd2k lat lon rad dtt : K) : SunPos K :=
  let lat := lat * deg2rad L
  let lon := lon * deg2rad L
  let (decl, rasc, hang) := sunpos5equat L mjd2k dtt lon
  let (azimuth, zenith) := sunpos5eq2hor L tan decl hang lat rad 0 0
  ⟨rad2deg L * decl, rad2deg L * rasc, rad2deg L * hang, rad2deg L * azimuth, rad2deg L * zenith⟩

/-- `sunpos_original` of one point, pysunpos_original.h lines 87-106. -/
def sunposOriginal (tan : K → K) (mjd2k lat lon rad dtt pres temp : K) : SunPos K :=
  let lat := lat * deg2rad L
  let lon := lon * deg2rad L
  let (year, month, day, hours) := mjd2kToDate mjd2k
  let (decl, rasc, hang, azimuth, zenith) := sunpos5original L tan year month day hours lat lon rad dtt pres temp
  ⟨rad2deg L * decl, rad2deg L * rasc, rad2deg L * hang, rad2deg L * azimuth, rad2deg L * zenith⟩

end Verif.Sun
