/-
Model of `sheval` from the initialisation of `MODEL` to the outputs.
Source: eoxmagmod/eoxmagmod/pymm_sheval.h

Doubles are the elements of a field `K`, so the coordinates are never NaN; the initial NaN
of the last coordinates is `none`.  The buffers come from `malloc`, their content is
arbitrary.  An access outside of a buffer gives `none`.  `small x` is `fabs(x) < 1e-10`,
`hiScale` is `SHC_LEG_HIGH_SCALE`.
-/
import Verif.Model.Geo
import Verif.Model.ShEvalPoint

namespace Verif.FullEval

open Verif.Geo Verif.ShPoint

/-- Constant part of `MODEL`, pymm_sheval.h lines 72-94. -/
structure Config (K : Type) where
  isInternal : Bool
  degree : Nat
  coordIn : CT
  coordOut : CT
  elpsA : K
  elpsEps2 : K
  cradRef : K
  scalePotential : K
  scaleGradient : V3 K

/-- Part of `MODEL` which changes. -/
structure State (K : Type) where
  clatLast : Option K
  clonLast : Option K
  cradLast : Option K
  mem : Mem K

variable {K : Type} [Field K]

/-- `RADIUS`, pymm_sheval.h line 52. -/
def radius : K := 63712 / 10

/-- `_model_init`, pymm_sheval.h lines 625-648: the constant part. -/
def config (isInternal : Bool) (degree : Nat) (coordIn coordOut : CT) (scalePotential : K)
    (scaleGradient : V3 K) : Config K :=
  ⟨isInternal, degree, coordIn, coordOut, wgs84A, wgs84Eps2, radius, scalePotential, scaleGradient⟩

/-- `_model_init`, pymm_sheval.h lines 641-643, 650-672. -/
def init (mem : Mem K) : State K := ⟨none, none, none, mem⟩

/-- Geocentric latitude, longitude (radians) and radius, and the geodetic latitude
(degrees; `none` for the initial NaN) of the point, pymm_sheval.h lines 507, 517-537. -/
def position (L : Libm K) (c : Config K) (v : V3 K) : V3 K × Option K :=
  match c.coordIn with
  | .geodetic => (geodetic2sph L v.x v.y v.z c.elpsA c.elpsEps2, some v.x)
  | .spherical =>
    let s : V3 K := ⟨dg2rad L * v.x, dg2rad L * v.y, v.z⟩
    (s, if c.coordOut = .geodetic then some (sph2geodetic L s.z s.x s.y c.elpsA c.elpsEps2).x else none)
  | .cartesian =>
    let s := cart2sph L v.x v.y v.z
    (s, if c.coordOut = .geodetic then some (sph2geodetic L s.z s.x s.y c.elpsA c.elpsEps2).x else none)

/-- Projection to the output coordinate system, pymm_sheval.h lines 566-584 (`none` when
the geodetic latitude is needed and it is still NaN). -/
def project (L : Libm K) (c : Config K) (p : V3 K × Option K) (g : Grad K) : Option (V3 K) :=
  match c.coordOut with
  | .spherical => some ⟨g.el, g.az, g.rd⟩
  | .geodetic => do
    let glat ← p.2
    let tmp := p.1.x - dg2rad L * glat
    let r := rot2d g.rd g.el (L.sin tmp) (L.cos tmp)
    return ⟨r.2, g.az, r.1⟩
  | .cartesian =>
    let r := rot2d g.rd g.el (L.sin p.1.x) (L.cos p.1.x)
    let q := rot2d r.1 g.az (L.sin p.1.y) (L.cos p.1.y)
    some ⟨q.1, q.2, r.2⟩

/-- Outputs of one point: potential and gradient, `none` if not requested. -/
abbrev Out (K : Type) := Option K × Option (V3 K)

/-- Projection and scaling, pymm_sheval.h lines 563-596.  `mode & SM_GRADIENT`,
`mode & SM_POTENTIAL` hold exactly when `shc_eval` wrote the output. -/
def finish (L : Libm K) (c : Config K) (p : V3 K × Option K) (o : Option K × Option (Grad K)) :
    Option (Out K) := do
  let grd : Option (V3 K) ← match o.2 with
    | none => some none
    | some g => do
      let f ← project L c p g
      some (some ⟨f.x * c.scaleGradient.x, f.y * c.scaleGradient.y, f.z * c.scaleGradient.z⟩)
  return (o.1.map (fun v => v * c.scalePotential), grd)

/-- `_model_eval`, pymm_sheval.h lines 501-597. -/
def modelEval [DecidableEq K] (L : Libm K) (small : K → Bool) (hiScale : K) (c : Config K) (mode : Nat)
    (s : State K) (v : V3 K) (coef : List (K × K)) : Option (State K × Out K) := do
  let p := position L c v
  let clat := p.1.x
  let clon := p.1.y
  let crad := p.1.z
  let leg ← (if s.clatLast ≠ some clat then
      Legendre.legendre L.sin L.sqrt small hiScale s.mem.leg c.degree clat      -- lines 540-541
    else some s.mem.leg)
  let lcs ← (if s.clonLast ≠ some clon then
      Fourier.fsCosSin L.cos L.sin s.mem.lcs c.degree clon                      -- lines 544-545
    else some s.mem.lcs)
  let rrp ← (if s.cradLast ≠ some crad then
      (if c.isInternal then RadPow.internal else RadPow.external)
        s.mem.rrp c.degree (crad / c.cradRef)                                   -- lines 548-549
    else some s.mem.rrp)
  let o ← eval L.sin L.cos L.sqrt small c.degree mode clat crad coef lcs leg.lp leg.ldp rrp
    c.isInternal                                                                -- lines 557-561
  let out ← finish L c p o
  return (⟨some clat, some clon, some crad, ⟨leg, lcs, rrp⟩⟩, out)

/-- `_sheval_pot`, `_sheval_grd`, `_sheval_pot_and_grd`, pymm_sheval.h lines 391-497, on
the flat list of the points and their coefficient arrays (Model/Arrays.lean has the
arrays). -/
def batch [DecidableEq K] (L : Libm K) (small : K → Bool) (hiScale : K) (c : Config K) (mode : Nat) :
    State K → List (V3 K × List (K × K)) → Option (List (Out K))
  | _, [] => some []
  | s, (v, coef) :: l => do
    let (s', o) ← modelEval L small hiScale c mode s v coef
    let os ← batch L small hiScale c mode s' l
    return o :: os

end Verif.FullEval
