/-
Model of the associated Legendre functions of low degrees with the rounding of each arithmetic
operation.
Source: eoxmagmod/eoxmagmod/include/spherical_harmonics.h, eoxmagmod/eoxmagmod/pymm_legendre.h

`rnd` is applied to the result of every operation with doubles, in the order of the C
expressions (no contraction to fused operations, no excess precision); the conversions of the
integers to `double` and the changes of the sign are exact.  `shc_legendre_high` is not
modelled with rounding.  With `rnd = id` these are the functions of Model/Legendre.lean.
-/
import Verif.Model.Legendre
import Verif.Model.FloatSeries

namespace Verif.FloatLegendre

open Verif.Buf Verif.Legendre Verif.FloatSeries

variable {K : Type} [Field K] (rnd : K → K)

/-- `shc_prersqrt`, spherical_harmonics.h lines 71-86, the first item (infinite) being `none`. -/
def prersqrtF (sqrt : K → K) (degree : Nat) : List (Option K) :=
  (List.range (2 * degree + 2)).map (fun (i : Nat) => if i = 0 then none else some (rnd (1 / sqrt (i : K))))

/-- `lp[i] *= f; ldp[i] *= f;` -/
def scaleF (o : Out K) (i : Int) (f : K) : Option (Out K) := do
  let p ← rdI o.lp i
  let d ← rdI o.ldp i
  o.put i (rnd (p * f)) (rnd (d * f))

/-- Body of the first loop over the degrees of `shc_legendre_low`, spherical_harmonics.h
lines 114-141. -/
def lowRowF (s c : K) (i : Nat) (o : Out K) : Option (Out K) := do
  let ioff : Int := ((i : Int) * (i + 1)).tdiv 2
  let i1sq : Int := ((i : Int) - 1) * (i - 1)
  let wdnm : K := rnd (1 / (((2 * (i : Int) - 1) * (2 * i - 3) : Int) : K))
  let o ← forBelow 0 (i - 1) (fun j o => do
    let idx0 := ioff + j
    let idx1 := ioff + j - i
    let idx2 := ioff + j - i - i + 1
    let w := rnd (wdnm * ((i1sq - (j : Int) * j : Int) : K))
    let p1 ← rdI o.lp idx1
    let p2 ← rdI o.lp idx2
    let d1 ← rdI o.ldp idx1
    let d2 ← rdI o.ldp idx2
    o.put idx0 (rnd (rnd (s * p1) - rnd (w * p2)))
      (rnd (rnd (rnd (s * d1) - rnd (w * d2)) + rnd (c * p1)))) o
  let idx0 := ioff + i
  let idx1 := ioff - 1
  let p1 ← rdI o.lp idx1
  let d1 ← rdI o.ldp idx1
  let o ← o.put (idx0 - 1) (rnd (s * p1)) (rnd (rnd (s * d1) + rnd (c * p1)))
  o.put idx0 (rnd (c * p1)) (rnd (rnd (c * d1) - rnd (s * p1)))

/-- Body of the second loop of `shc_legendre_low` (conversion of the normalisation),
spherical_harmonics.h lines 147-166; the second component is `sqn0`. -/
def lowNormF (psqrt : List K) (prsqrt : List (Option K)) (i : Nat) (st : Out K × K) :
    Option (Out K × K) := do
  let ioff : Int := ((i : Int) * (i + 1)).tdiv 2
  let sqn0 := rnd (st.2 * rnd (((2 * (i : Int) - 1 : Int) : K) / (i : K)))
  let o ← scaleF rnd st.1 ioff sqn0
  let a ← rdI psqrt (2 * i)
  let b ← rdr prsqrt (i + 1)
  let sqn1 := rnd (rnd (sqn0 * a) * b)
  let o ← scaleF rnd o (ioff + 1) sqn1
  let st ← forTo 2 i (fun j (st : Out K × K) => do
    let a ← rdI psqrt ((i : Int) - j + 1)
    let b ← rdr prsqrt (i + j)
    let sqn1 := rnd (st.2 * rnd (a * b))
    let o ← scaleF rnd st.1 (ioff + j) sqn1
    return (o, sqn1)) (o, sqn1)
  return (st.1, sqn0)

/-- `shc_legendre_low`, spherical_harmonics.h lines 98-168. -/
def lowF (o : Out K) (degree : Nat) (s c : K) (psqrt : List K) (prsqrt : List (Option K)) :
    Option (Out K) := do
  let lp ← wrI o.lp 0 1
  let lp ← wrI lp 1 s
  let lp ← wrI lp 2 c
  let ldp ← wrI o.ldp 0 0
  let ldp ← wrI ldp 1 c
  let ldp ← wrI ldp 2 (-s)
  let o ← forTo 2 degree (lowRowF rnd s c) ⟨lp, ldp⟩
  let st ← forTo 2 degree (lowNormF rnd psqrt prsqrt) (o, 1)
  return st.1

/-- `cos_elv` of `shc_legendre`, spherical_harmonics.h line 274. -/
def cosElvF (sqrt : K → K) (s : K) : K := sqrt (rnd (rnd (1 - s) * rnd (1 + s)))

/-- `legendre` of the Python module for one latitude and a degree up to 16, pymm_legendre.h
lines 65-201 with `shc_legendre`, spherical_harmonics.h lines 270-282; `pi` is the exact number
of which `M_PI` is the rounded value; the content `o` of the output arrays is arbitrary. -/
def legendreLowF (sin sqrt : K → K) (pi : K) (o : Out K) (lat : K) (degree : Nat) : Option (Out K) :=
  let s := sin (rnd (lat * dg2radF rnd pi))
  lowF rnd o degree s (cosElvF rnd sqrt s) (presqrt sqrt degree) (prersqrtF rnd sqrt degree)

end Verif.FloatLegendre
