/-
Model of the associated Legendre functions.
Source: eoxmagmod/eoxmagmod/include/spherical_harmonics.h, pymm_legendre.h

Doubles are the elements of a field `K`; `sqrt`, `sin` of libm are parameters.  Indices are
integers as in the code, an access outside of a buffer gives `none`.
-/
import Verif.Model.Buffer
import Mathlib.Algebra.Field.Defs
import Mathlib.Order.Defs.LinearOrder

namespace Verif.Legendre

open Verif.Buf

variable {K : Type} [Field K]

/-- `shc_presqrt`, spherical_harmonics.h lines 45-60. -/
def presqrt (sqrt : K → K) (degree : Nat) : List K :=
  (List.range (2 * degree + 2)).map (fun (i : Nat) => sqrt (i : K))

/-- `shc_prersqrt`, spherical_harmonics.h lines 71-86.  The first item is infinite, which is
not a number of the field: `none`. -/
def prersqrt (sqrt : K → K) (degree : Nat) : List (Option K) :=
  (List.range (2 * degree + 2)).map (fun (i : Nat) => if i = 0 then none else some (1 / sqrt (i : K)))

/-- Read of a reciprocal square root; `none` for the infinite one. -/
def rdr (b : List (Option K)) (i : Int) : Option K := (rdI b i).bind id

/-- The two output buffers `lp`, `ldp`. -/
structure Out (K : Type) where
  lp : List K
  ldp : List K

/-- `lp[i] = p; ldp[i] = d;` -/
def Out.put (o : Out K) (i : Int) (p d : K) : Option (Out K) := do
  let lp ← wrI o.lp i p
  let ldp ← wrI o.ldp i d
  return ⟨lp, ldp⟩

/-- `lp[i] *= f; ldp[i] *= f;` -/
def Out.scale (o : Out K) (i : Int) (f : K) : Option (Out K) := do
  let p ← rdI o.lp i
  let d ← rdI o.ldp i
  o.put i (p * f) (d * f)

/-- Body of the first loop over the degrees of `shc_legendre_low`, spherical_harmonics.h
lines 114-141. -/
def lowRow (s c : K) (i : Nat) (o : Out K) : Option (Out K) := do
  let ioff : Int := ((i : Int) * (i + 1)).tdiv 2
  let i1sq : Int := ((i : Int) - 1) * (i - 1)
  let wdnm : K := 1 / (((2 * (i : Int) - 1) * (2 * i - 3) : Int) : K)
  let o ← forBelow 0 (i - 1) (fun j o => do
    let idx0 := ioff + j
    let idx1 := ioff + j - i
    let idx2 := ioff + j - i - i + 1
    let w := wdnm * ((i1sq - (j : Int) * j : Int) : K)
    let p1 ← rdI o.lp idx1
    let p2 ← rdI o.lp idx2
    let d1 ← rdI o.ldp idx1
    let d2 ← rdI o.ldp idx2
    o.put idx0 (s * p1 - w * p2) (s * d1 - w * d2 + c * p1)) o
  let idx0 := ioff + i
  let idx1 := ioff - 1
  let p1 ← rdI o.lp idx1
  let d1 ← rdI o.ldp idx1
  let o ← o.put (idx0 - 1) (s * p1) (s * d1 + c * p1)
  o.put idx0 (c * p1) (c * d1 - s * p1)

/-- Body of the second loop of `shc_legendre_low` (conversion of the normalisation),
spherical_harmonics.h lines 147-166; the second component is `sqn0`. -/
def lowNorm (psqrt : List K) (prsqrt : List (Option K)) (i : Nat) (st : Out K × K) :
    Option (Out K × K) := do
  let ioff : Int := ((i : Int) * (i + 1)).tdiv 2
  let sqn0 := st.2 * (((2 * (i : Int) - 1 : Int) : K) / (i : K))
  let o ← st.1.scale ioff sqn0
  let a ← rdI psqrt (2 * i)
  let b ← rdr prsqrt (i + 1)
  let sqn1 := sqn0 * a * b
  let o ← o.scale (ioff + 1) sqn1
  let st ← forTo 2 i (fun j (st : Out K × K) => do
    let a ← rdI psqrt ((i : Int) - j + 1)
    let b ← rdr prsqrt (i + j)
    let sqn1 := st.2 * (a * b)
    let o ← st.1.scale (ioff + j) sqn1
    return (o, sqn1)) (o, sqn1)
  return (st.1, sqn0)

/-- `shc_legendre_low`, spherical_harmonics.h lines 98-168. -/
def low (o : Out K) (degree : Nat) (s c : K) (psqrt : List K) (prsqrt : List (Option K)) :
    Option (Out K) := do
  let lp ← wrI o.lp 0 1
  let lp ← wrI lp 1 s
  let lp ← wrI lp 2 c
  let ldp ← wrI o.ldp 0 0
  let ldp ← wrI ldp 1 c
  let ldp ← wrI ldp 2 (-s)
  let o ← forTo 2 degree (lowRow s c) ⟨lp, ldp⟩
  let st ← forTo 2 degree (lowNorm psqrt prsqrt) (o, 1)
  return st.1

/-- State of the first loop of `shc_legendre_high`. -/
structure Zonal (K : Type) where
  o : Out K
  pm2 : K
  pm1 : K
  idx : Int

/-- First loop of `shc_legendre_high` (order 0), spherical_harmonics.h lines 198-208. -/
def highZonal (s rc : K) (i : Nat) (st : Zonal K) : Option (Zonal K) := do
  let f1 : K := ((2 * (i : Int) - 1 : Int) : K) / (i : K)
  let f2 : K := (((i : Int) - 1 : Int) : K) / (i : K)
  let pm0 := f1 * s * st.pm1 - f2 * st.pm2
  let o ← st.o.put st.idx pm0 ((i : K) * rc * (st.pm1 - s * pm0))
  return ⟨o, st.pm1, pm0, st.idx + (i + 1)⟩

/-- State of the loop over the degrees for one order of `shc_legendre_high`, lines
234-247. -/
def highDeg (s pow powLast : K) (psqrt : List K) (prsqrt : List (Option K)) (j : Nat) (i : Nat)
    (st : Zonal K) : Option (Zonal K) := do
  let a ← rdI psqrt ((i : Int) + j)
  let b ← rdI psqrt ((i : Int) - j)
  let f0 := a * b
  let ra ← rdr prsqrt ((i : Int) + j)
  let rb ← rdr prsqrt ((i : Int) - j)
  let rf0 := ra * rb
  let f1 : K := ((2 * (i : Int) - 1 : Int) : K)
  let a2 ← rdI psqrt ((i : Int) - j - 1)
  let b2 ← rdI psqrt ((i : Int) + j - 1)
  let f2 := a2 * b2
  let plm := (f1 * s * st.pm1 - f2 * st.pm2) * rf0
  let o ← st.o.put st.idx (pow * plm) (-powLast * ((i : K) * s * plm - f0 * st.pm1))
  return ⟨o, st.pm1, plm, st.idx + (i + 1)⟩

/-- State of the loop over the orders of `shc_legendre_high`. -/
structure Sector (K : Type) where
  o : Out K
  pmm : K
  pow : K
  idx0 : Int

/-- Body of the loop over the orders of `shc_legendre_high`, lines 213-248. -/
def highOrder (degree : Nat) (s c : K) (psqrt : List K) (prsqrt : List (Option K)) (j : Nat)
    (st : Sector K) : Option (Sector K) := do
  let powLast := st.pow
  let pow := st.pow * c
  let a ← rdI psqrt (2 * j + 1)
  let b ← rdr prsqrt (2 * j)
  let pmm := st.pmm * (a * b)
  let d ← rdr prsqrt (2 * j + 1)
  let pm2 := pmm * d
  let pm1 := s * pmm
  let o ← st.o.put st.idx0 (pow * pm2) (-powLast * ((j : K) * s * pm2))
  let idx := st.idx0 + j + 1
  let o ← o.put idx (pow * pm1) (-powLast * (((j : K) + 1) * s * pm1 - pmm))
  let z ← forTo (j + 2) degree (highDeg s pow powLast psqrt prsqrt j) ⟨o, pm2, pm1, idx + (j + 2)⟩
  return ⟨z.o, pmm, pow, st.idx0 + (j + 1 + 1)⟩

/-- `shc_legendre_high`, spherical_harmonics.h lines 182-252; `scale` is
`SHC_LEG_HIGH_SCALE`.  The counter `j` has the value `max 1 degree` after the loop. -/
def high (scale : K) (o : Out K) (degree : Nat) (s c : K) (psqrt : List K)
    (prsqrt : List (Option K)) : Option (Out K) := do
  let rscale := 1 / scale
  let rc := 1 / c
  let lp ← wrI o.lp 0 1
  let lp ← wrI lp 1 s
  let ldp ← wrI o.ldp 0 0
  let ldp ← wrI ldp 1 c
  let z ← forTo 2 degree (highZonal s rc) ⟨⟨lp, ldp⟩, 1, s, 3⟩
  let q ← rdI psqrt 2
  let st ← forBelow 1 degree (highOrder degree s c psqrt prsqrt) ⟨z.o, rscale * q, scale, 2⟩
  let j := max 1 degree
  let r ← rdr prsqrt (2 * j)
  let pm2 := st.pmm * r
  st.o.put st.idx0 (st.pow * c * pm2) (-st.pow * ((j : K) * s * pm2))

/-- `shc_legendre`, spherical_harmonics.h lines 270-282.  `small` is the test
`fabs(cos_elv) < 1e-10`, `scale` the constant 1e280. -/
def legendre (sin sqrt : K → K) (small : K → Bool) (scale : K) (o : Out K) (degree : Nat) (elv : K) :
    Option (Out K) :=
  let s := sin elv
  let c := sqrt ((1 - s) * (1 + s))
  if degree ≤ 16 ∨ small c then low o degree s c (presqrt sqrt degree) (prersqrt sqrt degree)
  else high scale o degree s c (presqrt sqrt degree) (prersqrt sqrt degree)

/-- `legendre` of the Python module for one latitude, pymm_legendre.h lines 65-201; outer
`none` is `ValueError`; the output arrays have `(degree+1)(degree+2)/2` items. -/
def legendrePy (sin sqrt : K → K) (small : K → Bool) (scale rad : K) (o : Out K) (lat : K)
    (degree : Int) : Option (Option (Out K)) :=
  if degree < 0 then none
  else some (legendre sin sqrt small scale o degree.toNat (lat * rad))

end Verif.Legendre
