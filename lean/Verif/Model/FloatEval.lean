/-
Model of the evaluation of a spherical harmonic model at one point in the spherical coordinates
with the rounding of each arithmetic operation.
Source: eoxmagmod/eoxmagmod/include/spherical_harmonics.h, eoxmagmod/eoxmagmod/pymm_sheval.h

`rnd` is applied to the result of every operation with doubles, in the order of the C
expressions, as in Model/FloatSums.lean.
-/
import Verif.Model.FloatSums
import Verif.Model.FloatLegendre

namespace Verif.FloatEval

open Verif.Buf Verif.ShPoint Verif.FloatSums Verif.FloatSeries Verif.FloatLegendre

variable {K : Type} [Field K] (rnd : K → K)

/-- `shc_eval_v_dv`, spherical_harmonics.h lines 541-605. -/
def evalVDvF (sin cos sqrt : K → K) (small : K → Bool) (degree : Nat) (elv rad : K)
    (coef lcs : List (K × K)) (lp ldp rrp : List K) (isInternal : Bool) : Option (K × Grad K) := do
  let c ← rd coef 0
  let r ← rd rrp 0
  let tmp := rnd (c.1 * r)
  let st ← forTo 1 degree (fun i (st : K × K × K × K) => do
    let ioff := i * (i + 1) / 2
    let c ← rd coef ioff
    let p ← rd lp ioff
    let d ← rd ldp ioff
    let sti ← forTo 1 i (fun j (st : K × K × K × K) => do
      let idx := ioff + j
      let c ← rd coef idx
      let l ← rd lcs j
      let tmp0 := rnd (rnd (c.1 * l.1) + rnd (c.2 * l.2))
      let tmp1 := rnd (rnd (c.1 * l.2) - rnd (c.2 * l.1))
      let p ← rd lp idx
      let d ← rd ldp idx
      return (rnd (st.1 + rnd (tmp0 * p)), rnd (st.2.1 + rnd (tmp0 * d)),
        rnd (st.2.2.1 + rnd (rnd (tmp1 * p) * (j : K))),
        rnd (st.2.2.2 + rnd (rnd (tmp0 * p) * idr isInternal i))))
      (rnd (c.1 * p), rnd (c.1 * d), 0, rnd (rnd (c.1 * p) * idr isInternal i))
    let r ← rd rrp i
    return (rnd (st.1 + rnd (r * sti.1)), rnd (st.2.1 + rnd (r * sti.2.1)), rnd (st.2.2.1 - rnd (r * sti.2.2.1)),
      rnd (st.2.2.2 - rnd (r * sti.2.2.2))))
    (tmp, 0, 0, rnd (-tmp * idr isInternal 0))
  let g ← fixPoleF rnd sin cos sqrt small degree elv coef lcs rrp
    ⟨st.2.1, rnd (st.2.2.1 / cos elv), st.2.2.2⟩
  return (rnd (st.1 * rad), g)

/-- `shc_eval`, spherical_harmonics.h lines 634-663; an output not written by the selected
function is `none`. -/
def evalF (sin cos sqrt : K → K) (small : K → Bool) (degree mode : Nat) (elv rad : K)
    (coef lcs : List (K × K)) (lp ldp rrp : List K) (isInternal : Bool) :
    Option (Option K × Option (Grad K)) :=
  match mode % 4 with
  | 1 => do
    let v ← evalVF rnd degree rad coef lcs lp rrp
    return (some v, none)
  | 2 => do
    let g ← evalDvF rnd sin cos sqrt small degree elv coef lcs lp ldp rrp isInternal
    return (none, some g)
  | 3 => do
    let (v, g) ← evalVDvF rnd sin cos sqrt small degree elv rad coef lcs lp ldp rrp isInternal
    return (some v, some g)
  | _ => some (none, none)

/-- `_model_eval` for a fresh `MODEL` of a degree up to 16 with the geocentric spherical input and
output coordinates, pymm_sheval.h lines 501-606 (`x`, `y` in degrees, `ref` is `RADIUS`, `sp` and
`sg` are the scales of the potential and of the gradient); `pi` is the exact number of which
`M_PI` is the rounded value. -/
def sphPointF (sin cos sqrt : K → K) (small : K → Bool) (pi ref : K) (degree mode : Nat) (isInternal : Bool)
    (sp : K) (sg : K × K × K) (b : Mem K) (x y z : K) (coef : List (K × K)) :
    Option (Option K × Option (Grad K)) := do
  let clat := rnd (dg2radF rnd pi * x)
  let clon := rnd (dg2radF rnd pi * y)
  let s := sin clat
  let leg ← lowF rnd b.leg degree s (cosElvF rnd sqrt s) (Legendre.presqrt sqrt degree) (prersqrtF rnd sqrt degree)
  let lcs ← fsCosSinF rnd cos sin b.lcs degree clon
  let rrp ← (if isInternal then internalF rnd else externalF rnd) b.rrp degree (rnd (z / ref))
  let o ← evalF rnd sin cos sqrt small degree mode clat z coef lcs leg.lp leg.ldp rrp isInternal
  return (o.1.map (fun v => rnd (v * sp)),
    o.2.map (fun g => ⟨rnd (g.el * sg.1), rnd (g.az * sg.2.1), rnd (g.rd * sg.2.2)⟩))

end Verif.FloatEval
