/-
Model of the composed geomagnetic models and of the single time evaluation of the
spherical harmonic models.
Source: eoxmagmod/eoxmagmod/magnetic_model/model_composed.py,
        eoxmagmod/eoxmagmod/magnetic_model/model.py,
        eoxmagmod/eoxmagmod/magnetic_model/model_mio.py (`validity`)

The evaluation is modelled for one time and one location.  A result is `none` for an
exception or an access outside of a buffer, `some none` for the NaN vector (all three
components are set to NaN by the code, and the rotations and scales of such a vector give
NaN in all three components) and `some (some v)` for the vector `v`.
-/
import Verif.Model.FullEval
import Mathlib.Order.BoundedOrder.Basic
import Mathlib.Order.Defs.LinearOrder

namespace Verif.ComposedModel

open Verif.Geo Verif.ShPoint Verif.FullEval

/-! ### Validity -/

section validity
variable {T : Type} [LinearOrder T] [BoundedOrder T]

/-- `_validity_overlap`, model_composed.py lines 42-49; `⊥` is `-inf`. -/
def validityOverlap (v w : T × T) : T × T :=
  let s := max v.1 w.1
  let e := min v.2 w.2
  if e < s then (⊥, ⊥) else (s, e)

/-- `validity` after `__init__` and `push` of the members, model_composed.py lines 57-72. -/
def validity (members : List (T × T)) : T × T := members.foldl validityOverlap (⊥, ⊤)

/-- `MIOPrimaryGeomagneticModel.validity`, model_mio.py lines 113-117. -/
def mioValidity (above below : T × T) : T × T := (max above.1 below.1, min above.2 below.2)

end validity

/-! ### Evaluation -/

variable {K T V : Type} [Field K]

/-- Keyword arguments other than `scale` and the coordinate systems. -/
abbrev Opts (V : Type) := String → Option V

/-- `args = options.copy(); args.update(params)` -/
def Opts.update (options params : Opts V) : Opts V := fun k => match params k with
  | some v => some v
  | none => options k

/-- Product of the components: multiplication of an array by the option `scale` (one
number or three numbers; one number is three equal numbers here). -/
def cmul (s v : V3 K) : V3 K := ⟨v.x * s.x, v.y * s.y, v.z * s.z⟩

def vplus (a b : V3 K) : V3 K := ⟨a.x + b.x, a.y + b.y, a.z + b.z⟩

/-- Type of the method `eval` of one model: time, location, input and output coordinate
system, `scale` (`none` if missing), other options. -/
abbrev Eval (K T V : Type) := T → V3 K → CT → CT → Option (V3 K) → Opts V → Option (Option (V3 K))

/-- Models: a composed model holds its components (model, scale, parameters),
model_composed.py lines 39, 64-68.  The parameters do not include `time`, `location`
(exception) and the coordinate systems. -/
inductive Node (K T V : Type) where
  | leaf (ev : Eval K T V)
  | composed (items : List (Node K T V × V3 K × Opts V))

/-- NumPy `a + b` -/
def addRes (a b : Option (V3 K)) : Option (V3 K) := do return vplus (← a) (← b)

/-- Geodetic coordinates of the location, model_composed.py lines 113-118. -/
def coordOut (L : Libm K) (i : CT) (location coordSph : V3 K) : V3 K :=
  match i with
  | .geodetic => location
  | _ => getFconv L .spherical .geodetic coordSph

/-- Rotation of the result, model_composed.py lines 111-121. -/
def rotateOut (L : Libm K) (i o : CT) (location coordSph result : V3 K) : V3 K :=
  match o with
  | .geodetic => vrotSph2geod L result ((coordOut L i location coordSph).x - coordSph.x)
  | .cartesian => vrotSph2cart L result coordSph.x coordSph.y
  | .spherical => result

/-- Rotation and the final scale, model_composed.py lines 111-127. -/
def finishOut (L : Libm K) (i o : CT) (location coordSph : V3 K) (scale : Option (V3 K))
    (result : Option (V3 K)) : Option (V3 K) :=
  let r := result.map (rotateOut L i o location coordSph)
  match scale with
  | some f => r.map (cmul f)
  | none => r

mutual
/-- `eval`, model_composed.py lines 79-127. -/
def evalNode (L : Libm K) (isnan : T → Bool) : Node K T V → Eval K T V
  | .leaf ev => ev
  | .composed items => fun time location i o scale options => do
    let coordSph := getFconv L i .spherical location                           -- lines 88-90
    let result ← evalItems L isnan items time coordSph options
    return finishOut L i o location coordSph scale result

/-- The members, model_composed.py lines 94-109. -/
def evalItems (L : Libm K) (isnan : T → Bool) : List (Node K T V × V3 K × Opts V) → T → V3 K →
    Opts V → Option (Option (V3 K))
  | [], time, _, _ => some (if isnan time then none else some ⟨0, 0, 0⟩)       -- lines 104-109
  | (m, s, params) :: rest, time, coordSph, options => do
    let first ← evalNode L isnan m time coordSph .spherical .spherical (some s) (options.update params)
    evalRest L isnan rest time coordSph options first

/-- The loop over the other members, model_composed.py lines 100-103. -/
def evalRest (L : Libm K) (isnan : T → Bool) : List (Node K T V × V3 K × Opts V) → T → V3 K →
    Opts V → Option (V3 K) → Option (Option (V3 K))
  | [], _, _, _, result => some result
  | (m, s, params) :: rest, time, coordSph, options, result => do
    let r ← evalNode L isnan m time coordSph .spherical .spherical (some s) (options.update params)
    evalRest L isnan rest time coordSph options (addRes result r)
end

/-! ### Spherical harmonic models -/

/-- Coefficients with their validity: `coefficients(time, **options)` gives the table and
the degree (`none` for an exception), model.py lines 79-84. -/
structure Coeffs (K T V : Type) where
  s : T
  e : T
  isInternal : Bool
  call : T → Opts V → Option (List (K × K) × Nat)

/-- `_eval_single_time`, model.py lines 222-233: gradient of `sheval` (mode 2) multiplied by
`-scale`; `mem` are the new buffers for the degree. -/
def evalSingleTime [DecidableEq K] (L : Libm K) (small : K → Bool) (hiScale : K) (mem : Nat → Mem K)
    (c : Coeffs K T V) : Eval K T V := fun time location i o scale options => do
  let (coeff, degree) ← c.call time options
  let sc : V3 K := scale.getD ⟨1, 1, 1⟩
  let outs ← batch L small hiScale (config c.isInternal degree i o 1 ⟨-sc.x, -sc.y, -sc.z⟩) 2
    (init (mem degree)) [(location, coeff)]
  let out ← outs.head?
  let g ← out.2
  return some g

/-- `DipoleSphericalHarmomicGeomagneticModel._eval`, model.py lines 247-271, around the
evaluation method. -/
def evalDipole (L : Libm K) (code : CT → Int) (latNgp lonNgp : K) (method : Eval K T V) : Eval K T V :=
  fun time location i o scale options => do
    let locationDipole ← convertToDipole L location latNgp lonNgp (code i)
    let result ← method time locationDipole .spherical .spherical none options
    match result with
    | none => return none
    | some r =>
      let r ← rotateVectorsFromDipole L r latNgp lonNgp locationDipole location (code i) (code o)
      return some (match scale with
        | some f => cmul f r
        | none => r)

/-- `eval` with a scalar time, model.py lines 143-148: the first component whose interval
contains the time, NaN otherwise; `method` is `_eval` of the class. -/
def evalModel [LinearOrder T] (method : Coeffs K T V → Eval K T V) (comps : List (Coeffs K T V)) :
    Eval K T V := fun time location i o scale options =>
  match comps with
  | [] => some none
  | c :: rest =>
    if decide (time ≥ c.s) && decide (time ≤ c.e) then method c time location i o scale options
    else evalModel method rest time location i o scale options

end Verif.ComposedModel
