/-
Model of the sums of the spherical harmonic series with the rounding of each arithmetic
operation.
Source: eoxmagmod/eoxmagmod/include/spherical_harmonics.h

`rnd` is applied to the result of every operation with doubles, in the order of the C
expressions (no contraction to fused operations, no excess precision); the conversions of the
integers to `double` and the changes of the sign are exact, the degree being less than 2^53.
With `rnd = id` these are the functions of Model/ShEvalPoint.lean.
-/
import Verif.Model.ShEvalPoint

namespace Verif.FloatSums

open Verif.Buf Verif.ShPoint

variable {K : Type} [Field K] (rnd : K → K)

/-- `shc_eval_v`, spherical_harmonics.h lines 352-383. -/
def evalVF (degree : Nat) (rad : K) (coef lcs : List (K × K)) (lp rrp : List K) : Option K := do
  let c ← rd coef 0
  let r ← rd rrp 0
  let v ← forTo 1 degree (fun i v => do
    let ioff := i * (i + 1) / 2
    let c ← rd coef ioff
    let p ← rd lp ioff
    let vi ← forTo 1 i (fun j vi => do
      let idx := ioff + j
      let c ← rd coef idx
      let l ← rd lcs j
      let tmp := rnd (rnd (c.1 * l.1) + rnd (c.2 * l.2))
      let p ← rd lp (ioff + j)
      return rnd (vi + rnd (tmp * p))) (rnd (c.1 * p))
    let r ← rd rrp i
    return rnd (v + rnd (r * vi))) (rnd (c.1 * r))
  return rnd (v * rad)

/-- `shc_eval_dvaz_pole`, spherical_harmonics.h lines 401-436. -/
def dvazPoleF (sin sqrt : K → K) (degree : Nat) (elv : K) (coef lcs : List (K × K)) (rrp : List K) :
    Option K := do
  let s := sin elv
  let l ← rd lcs 1
  let c ← rd coef 2
  let r ← rd rrp 1
  let st ← forTo 2 degree (fun i (st : Pole K) => do
    let idx := 1 + i * (i + 1) / 2
    let tmp : K := rnd ((((i - 1) * (i - 1) - 1 : Nat) : K) / (((2 * i - 1) * (2 * i - 3) : Nat) : K))
    let sqn1 := rnd (st.sqn1 * rnd (((2 * i - 1 : Nat) : K) / (i : K)))
    let sqn3 := rnd (sqn1 * sqrt (rnd (((i * 2 : Nat) : K) / ((i + 1 : Nat) : K))))
    let ps2 := st.ps1
    let ps1 := st.ps0
    let ps0 := rnd (rnd (s * ps1) - rnd (tmp * ps2))
    let c ← rd coef idx
    let r ← rd rrp i
    return ⟨rnd (st.dvaz + rnd (rnd (rnd (rnd (rnd (c.1 * l.2) - rnd (c.2 * l.1)) * r) * ps0) * sqn3)),
      sqn1, ps1, ps0⟩)
    ⟨rnd (rnd (rnd (c.1 * l.2) - rnd (c.2 * l.1)) * r), 1, 1, 1⟩
  return -st.dvaz

/-- The replacement of the azimuth component near the poles, spherical_harmonics.h lines
512-515. -/
def fixPoleF (sin cos sqrt : K → K) (small : K → Bool) (degree : Nat) (elv : K)
    (coef lcs : List (K × K)) (rrp : List K) (g : Grad K) : Option (Grad K) :=
  if degree > 0 ∧ small (cos elv) then do
    let az ← dvazPoleF rnd sin sqrt degree elv coef lcs rrp
    return { g with az := az }
  else some g

/-- `shc_eval_dv`, spherical_harmonics.h lines 458-516. -/
def evalDvF (sin cos sqrt : K → K) (small : K → Bool) (degree : Nat) (elv : K)
    (coef lcs : List (K × K)) (lp ldp rrp : List K) (isInternal : Bool) : Option (Grad K) := do
  let c ← rd coef 0
  let r ← rd rrp 0
  let tmp := rnd (c.1 * r)
  let st ← forTo 1 degree (fun i (st : K × K × K) => do
    let ioff := i * (i + 1) / 2
    let c ← rd coef ioff
    let p ← rd lp ioff
    let d ← rd ldp ioff
    let sti ← forTo 1 i (fun j (st : K × K × K) => do
      let idx := ioff + j
      let c ← rd coef idx
      let l ← rd lcs j
      let tmp0 := rnd (rnd (c.1 * l.1) + rnd (c.2 * l.2))
      let tmp1 := rnd (rnd (c.1 * l.2) - rnd (c.2 * l.1))
      let p ← rd lp idx
      let d ← rd ldp idx
      return (rnd (st.1 + rnd (tmp0 * d)), rnd (st.2.1 + rnd (rnd (tmp1 * p) * (j : K))),
        rnd (st.2.2 + rnd (rnd (tmp0 * p) * idr isInternal i))))
      (rnd (c.1 * d), 0, rnd (rnd (c.1 * p) * idr isInternal i))
    let r ← rd rrp i
    return (rnd (st.1 + rnd (r * sti.1)), rnd (st.2.1 - rnd (r * sti.2.1)), rnd (st.2.2 - rnd (r * sti.2.2))))
    (0, 0, rnd (-tmp * idr isInternal 0))
  fixPoleF rnd sin cos sqrt small degree elv coef lcs rrp ⟨st.1, rnd (st.2.1 / cos elv), st.2.2⟩

end Verif.FloatSums
