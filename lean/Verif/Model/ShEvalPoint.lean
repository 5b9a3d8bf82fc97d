/-
Model of the evaluation of the spherical harmonic series at one point.
Source: eoxmagmod/eoxmagmod/include/spherical_harmonics.h, pymm_sheval.h, pymm_spharpot.h,
pymm_sphargrd.h

Doubles are the elements of a field `K`; `sin`, `cos`, `sqrt` of libm and the test `small x`
for `fabs(x) < 1e-10` are parameters.  An access outside of a buffer gives `none`.
-/
import Verif.Model.Legendre
import Verif.Model.Fourier
import Verif.Model.RadPow

namespace Verif.ShPoint

open Verif.Buf

variable {K : Type} [Field K]

/-- `shc_eval_v`, spherical_harmonics.h lines 352-383. -/
def evalV (degree : Nat) (rad : K) (coef lcs : List (K × K)) (lp rrp : List K) : Option K := do
  let c ← rd coef 0
  let r ← rd rrp 0
  let v ← forTo 1 degree (fun i v => do
    let ioff := i * (i + 1) / 2
    let c ← rd coef ioff
    let p ← rd lp ioff
    let vi ← forTo 1 i (fun j vi => do
      let idx := ioff + j
      let c ← rd coef idx
      let l ← rd lcs j
      let tmp := c.1 * l.1 + c.2 * l.2
      let p ← rd lp (ioff + j)
      return vi + tmp * p) (c.1 * p)
    let r ← rd rrp i
    return v + r * vi) (c.1 * r)
  return v * rad

/-- State of the loop of `shc_eval_dvaz_pole`. -/
structure Pole (K : Type) where
  dvaz : K
  sqn1 : K
  ps1 : K
  ps0 : K

/-- `shc_eval_dvaz_pole`, spherical_harmonics.h lines 401-436.  The differences of unsigned
integers do not wrap since `i >= 2`. -/
def dvazPole (sin sqrt : K → K) (degree : Nat) (elv : K) (coef lcs : List (K × K)) (rrp : List K) :
    Option K := do
  let s := sin elv
  let l ← rd lcs 1
  let c ← rd coef 2
  let r ← rd rrp 1
  let st ← forTo 2 degree (fun i (st : Pole K) => do
    let idx := 1 + i * (i + 1) / 2
    let tmp : K := (((i - 1) * (i - 1) - 1 : Nat) : K) / (((2 * i - 1) * (2 * i - 3) : Nat) : K)
    let sqn1 := st.sqn1 * (((2 * i - 1 : Nat) : K) / (i : K))
    let sqn3 := sqn1 * sqrt (((i * 2 : Nat) : K) / ((i + 1 : Nat) : K))
    let ps2 := st.ps1
    let ps1 := st.ps0
    let ps0 := s * ps1 - tmp * ps2
    let c ← rd coef idx
    let r ← rd rrp i
    return ⟨st.dvaz + (c.1 * l.2 - c.2 * l.1) * r * ps0 * sqn3, sqn1, ps1, ps0⟩)
    ⟨(c.1 * l.2 - c.2 * l.1) * r, 1, 1, 1⟩
  return -st.dvaz

/-- Components of the gradient: elevation, azimuth, radius. -/
structure Grad (K : Type) where
  el : K
  az : K
  rd : K

/-- `dr_scale*(i + dr_offset)`, spherical_harmonics.h lines 469-470, 486, 553-554, 571. -/
def idr (isInternal : Bool) (i : Nat) : K :=
  (if isInternal then 1 else -1) * ((i + (if isInternal then 1 else 0) : Nat) : K)

/-- The replacement of the azimuth component near the poles, spherical_harmonics.h lines
512-515, 601-604. -/
def fixPole (sin cos sqrt : K → K) (small : K → Bool) (degree : Nat) (elv : K)
    (coef lcs : List (K × K)) (rrp : List K) (g : Grad K) : Option (Grad K) :=
  if degree > 0 ∧ small (cos elv) then do
    let az ← dvazPole sin sqrt degree elv coef lcs rrp
    return { g with az := az }
  else some g

/-- `shc_eval_dv`, spherical_harmonics.h lines 458-516. -/
def evalDv (sin cos sqrt : K → K) (small : K → Bool) (degree : Nat) (elv : K)
    (coef lcs : List (K × K)) (lp ldp rrp : List K) (isInternal : Bool) : Option (Grad K) := do
  let c ← rd coef 0
  let r ← rd rrp 0
  let tmp := c.1 * r
  let st ← forTo 1 degree (fun i (st : K × K × K) => do
    let ioff := i * (i + 1) / 2
    let c ← rd coef ioff
    let p ← rd lp ioff
    let d ← rd ldp ioff
    let sti ← forTo 1 i (fun j (st : K × K × K) => do
      let idx := ioff + j
      let c ← rd coef idx
      let l ← rd lcs j
      let tmp0 := c.1 * l.1 + c.2 * l.2
      let tmp1 := c.1 * l.2 - c.2 * l.1
      let p ← rd lp idx
      let d ← rd ldp idx
      return (st.1 + tmp0 * d, st.2.1 + tmp1 * p * (j : K), st.2.2 + tmp0 * p * idr isInternal i))
      (c.1 * d, 0, c.1 * p * idr isInternal i)
    let r ← rd rrp i
    return (st.1 + r * sti.1, st.2.1 - r * sti.2.1, st.2.2 - r * sti.2.2))
    (0, 0, -tmp * idr isInternal 0)
  fixPole sin cos sqrt small degree elv coef lcs rrp ⟨st.1, st.2.1 / cos elv, st.2.2⟩

/-- `shc_eval_v_dv`, spherical_harmonics.h lines 541-605. -/
def evalVDv (sin cos sqrt : K → K) (small : K → Bool) (degree : Nat) (elv rad : K)
    (coef lcs : List (K × K)) (lp ldp rrp : List K) (isInternal : Bool) : Option (K × Grad K) := do
  let c ← rd coef 0
  let r ← rd rrp 0
  let tmp := c.1 * r
  let st ← forTo 1 degree (fun i (st : K × K × K × K) => do
    let ioff := i * (i + 1) / 2
    let c ← rd coef ioff
    let p ← rd lp ioff
    let d ← rd ldp ioff
    let sti ← forTo 1 i (fun j (st : K × K × K × K) => do
      let idx := ioff + j
      let c ← rd coef idx
      let l ← rd lcs j
      let tmp0 := c.1 * l.1 + c.2 * l.2
      let tmp1 := c.1 * l.2 - c.2 * l.1
      let p ← rd lp idx
      let d ← rd ldp idx
      return (st.1 + tmp0 * p, st.2.1 + tmp0 * d, st.2.2.1 + tmp1 * p * (j : K),
        st.2.2.2 + tmp0 * p * idr isInternal i))
      (c.1 * p, c.1 * d, 0, c.1 * p * idr isInternal i)
    let r ← rd rrp i
    return (st.1 + r * sti.1, st.2.1 + r * sti.2.1, st.2.2.1 - r * sti.2.2.1,
      st.2.2.2 - r * sti.2.2.2))
    (tmp, 0, 0, -tmp * idr isInternal 0)
  let g ← fixPole sin cos sqrt small degree elv coef lcs rrp
    ⟨st.2.1, st.2.2.1 / cos elv, st.2.2.2⟩
  return (st.1 * rad, g)

/-- `shc_eval`, spherical_harmonics.h lines 634-663; an output not written by the selected
function is `none`. -/
def eval (sin cos sqrt : K → K) (small : K → Bool) (degree mode : Nat) (elv rad : K)
    (coef lcs : List (K × K)) (lp ldp rrp : List K) (isInternal : Bool) :
    Option (Option K × Option (Grad K)) :=
  match mode % 4 with
  | 1 => do
    let v ← evalV degree rad coef lcs lp rrp
    return (some v, none)
  | 2 => do
    let g ← evalDv sin cos sqrt small degree elv coef lcs lp ldp rrp isInternal
    return (none, some g)
  | 3 => do
    let (v, g) ← evalVDv sin cos sqrt small degree elv rad coef lcs lp ldp rrp isInternal
    return (some v, some g)
  | _ => some (none, none)

/-- Buffers of `MODEL` after `malloc`, pymm_sheval.h lines 650-672: arbitrary content. -/
structure Mem (K : Type) where
  leg : Legendre.Out K
  lcs : List (K × K)
  rrp : List K

/-- Spherical part of `_model_eval` for a fresh `MODEL`, pymm_sheval.h lines 539-561: the
three series are filled and the harmonic series is evaluated (`clat`, `clon` in radians,
`ref` is `RADIUS`, `scale` is `SHC_LEG_HIGH_SCALE`). -/
def point (sin cos sqrt : K → K) (small : K → Bool) (scale ref : K) (degree mode : Nat)
    (isInternal : Bool) (b : Mem K) (clat clon crad : K) (coef : List (K × K)) :
    Option (Option K × Option (Grad K)) := do
  let leg ← Legendre.legendre sin sqrt small scale b.leg degree clat
  let lcs ← Fourier.fsCosSin cos sin b.lcs degree clon
  let rrp ← (if isInternal then RadPow.internal else RadPow.external) b.rrp degree (crad / ref)
  eval sin cos sqrt small degree mode clat crad coef lcs leg.lp leg.ldp rrp isInternal

end Verif.ShPoint
