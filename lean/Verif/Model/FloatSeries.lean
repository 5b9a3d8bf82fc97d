/-
Model of the series of the radial powers and of the cosines and sines with the rounding of
each arithmetic operation.
Source: eoxmagmod/eoxmagmod/include/spherical_harmonics.h, fourier_series.h,
geo_conversion.h, eoxmagmod/eoxmagmod/pymm_relradpow.h, pymm_loncossin.h

`rnd` is applied to the result of every operation with doubles, in the order of the C
expressions (no contraction to fused operations, no excess precision); the conversion of the
counter to `double` is exact.  With `rnd = id` these are the functions of Model/RadPow.lean and
Model/Fourier.lean.
-/
import Verif.Model.RadPow
import Verif.Model.Fourier

namespace Verif.FloatSeries

open Verif.Buf

variable {K : Type} [Field K] (rnd : K → K)

/-- `shc_relradpow_internal`, spherical_harmonics.h lines 295-306. -/
def internalF (b : List K) (degree : Nat) (relrad : K) : Option (List K) := do
  let rr := rnd (1 / relrad)
  let s ← forTo 0 degree (fun i s => do
    let last := rnd (s.2 * rr)
    let b ← wr s.1 i last
    return (b, last)) (b, rr)
  return s.1

/-- `shc_relradpow_external`, spherical_harmonics.h lines 319-335. -/
def externalF (b : List K) (degree : Nat) (relrad : K) : Option (List K) := do
  let val : K := 1
  let b ← wr b 0 (rnd (val / relrad))
  let b ← if 1 ≤ degree then wr b 1 val else some b
  let s ← forTo 2 degree (fun i s => do
    let val := rnd (s.2 * relrad)
    let b ← wr s.1 i val
    return (b, val)) (b, val)
  return s.1

/-- `relradpow` for one radius, pymm_relradpow.h lines 69-188: outer `none` is
`ValueError` (lines 93, 99), inner `none` an access outside of the output array, whose
content `b` is arbitrary. -/
def relradpowF [LinearOrder K] (b : List K) (rad : K) (degree : Int) (ref : K) (isInternal : Bool) :
    Option (Option (List K)) :=
  if degree < 0 then none
  else if ref ≤ 0 then none
  else some ((if isInternal then internalF rnd else externalF rnd) b degree.toNat (rnd (rad / ref)))

/-- `fs_cos_sin`, fourier_series.h lines 54-86. -/
def fsCosSinF (cos sin : K → K) (b : List (K × K)) (n : Nat) (x : K) : Option (List (K × K)) := do
  let b ← wr b 0 (1, 0)
  if n ≥ 1 then
    let cosx := cos x
    let sinx := sin x
    let b ← wr b 1 (cosx, sinx)
    let s ← forTo 2 n (fun i s => do
      let cosNew := rnd (rnd (s.2.1 * cosx) - rnd (s.2.2 * sinx))
      let sinNew := rnd (rnd (s.2.1 * sinx) + rnd (s.2.2 * cosx))
      let b ← wr s.1 i (cosNew, sinNew)
      return (b, cosNew, sinNew)) (b, cosx, sinx)
    return s.1
  else
    return b

/-- `fs_cos_sin_ref`, fourier_series.h lines 106-119. -/
def fsCosSinRefF (cos sin : K → K) (b : List (K × K)) (n : Nat) (t : K) : Option (List (K × K)) :=
  forTo 0 n (fun i b => wr b i (cos (rnd ((i : K) * t)), sin (rnd ((i : K) * t)))) b

/-- `DG2RAD`, geo_conversion.h line 35; `pi` is the exact number of which `M_PI` is the rounded
value. -/
def dg2radF (pi : K) : K := rnd (rnd pi / 180)

/-- `loncossin` for one longitude, pymm_loncossin.h lines 55-156: `none` outside is
`ValueError` (line 72), `none` inside an access outside of the output array of `degree+1`
rows, whose content `b` is arbitrary. -/
def loncossinF (cos sin : K → K) (pi : K) (b : List (K × K)) (lon : K) (degree : Int)
    (fastAlg : Bool) : Option (Option (List (K × K))) :=
  if degree < 0 then none
  else some ((if fastAlg then fsCosSinF rnd cos sin else fsCosSinRefF rnd cos sin) b degree.toNat
    (rnd (lon * dg2radF rnd pi)))

end Verif.FloatSeries
