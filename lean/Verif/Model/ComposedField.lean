/-
Model of the composed models on arrays, with all kinds of members: spherical harmonic models, also in the frame of the
dipole, MIO models and composed models.
Source: eoxmagmod/eoxmagmod/magnetic_model/model_composed.py

The items of the results are `none` where they are NaN.
-/
import Verif.Model.MioField
import Verif.Model.ComposedModel

namespace Verif.ComposedField

open Verif.Buf Verif.Geo Verif.Arr Verif.Coeffs Verif.ModelEval Verif.Field Verif.MioField

variable {K : Type}

/-- Keyword arguments of `eval` besides the coordinate systems and `scale`; `none` if missing (values `None` are not told
from missing ones). -/
structure Args (K : Type) where
  minDegree : Option Int := none
  maxDegree : Option Int := none
  f107 : Option (NdArray (Option K)) := none
  latSol : Option (NdArray K) := none
  lonSol : Option (NdArray K) := none

/-- `args = options.copy(); args.update(params)`, model_composed.py lines 97-98 and 101-102. -/
def Args.update (options params : Args K) : Args K where
  minDegree := params.minDegree.or options.minDegree
  maxDegree := params.maxDegree.or options.maxDegree
  f107 := params.f107.or options.f107
  latSol := params.latSol.or options.latSol
  lonSol := params.lonSol.or options.lonSol

/-- The options read by the spherical harmonic models; the default degrees are -1, coefficients.py lines 461-467 and
coefficients_mio.py lines 56-66. -/
def Args.options (args : Args K) (scale : Scale K) : Options K :=
  ⟨args.minDegree.getD (-1), args.maxDegree.getD (-1), scale⟩

/-- Models: `SphericalHarmomicGeomagneticModel`, `DipoleSphericalHarmomicGeomagneticModel`,
`DipoleMIOGeomagneticModel`, `MIOPrimaryGeomagneticModel`, and `ComposedGeomagneticModel` with its components
(model, scale, parameters), model_composed.py lines 39, 57-68.  The scale of a component is not `None`. -/
inductive Member (K : Type) where
  | sh (coefficients : Tree (Ext K) (Sparse K))
  | dipole (coefficients : Tree (Ext K) (Sparse K)) (latNgp lonNgp : K)
  | mio (m : MioModel K)
  | primary (below above : MioModel K) (height radius : K)
  | composed (items : List (Member K × Scale K × Args K))

section
variable [Field K]

/-! ### Arithmetic with NaN -/

/-- Sum of items which may be NaN. -/
def addNan : Option K → Option K → Option K
  | some a, some b => some (a + b)
  | _, _ => none

/-- Difference of items which may be NaN. -/
def subNan : Option K → Option K → Option K
  | some a, some b => some (a - b)
  | _, _ => none

/-- `rot2d`, math_aux.h lines 104-108, of numbers which may be NaN by a finite angle. -/
def rot2dNan (x y : Option K) (sn cs : K) : Option K × Option K :=
  (subNan (mulNan x (some cs)) (mulNan y (some sn)), addNan (mulNan x (some sn)) (mulNan y (some cs)))

/-- `_vrot_sph2geod`, pymm_vrot_sph2geod.h lines 41-69, as `Geo.vrotSph2geod`. -/
def vrotSph2geodNan (L : Libm K) (v : V3 (Option K)) (dlat : K) : V3 (Option K) :=
  let d := -dg2rad L * dlat
  let r := rot2dNan v.z v.x (L.sin d) (L.cos d)
  ⟨r.2, v.y, r.1⟩

/-- `_vrot_sph2cart`, pymm_vrot_sph2cart.h lines 42-75, as `Geo.vrotSph2cart`. -/
def vrotSph2cartNan (L : Libm K) (v : V3 (Option K)) (lat lon : K) : V3 (Option K) :=
  let la := dg2rad L * lat
  let lo := dg2rad L * lon
  let r := rot2dNan v.z v.x (L.sin la) (L.cos la)
  let q := rot2dNan r.1 v.y (L.sin lo) (L.cos lo)
  ⟨q.1, q.2, r.2⟩

/-- One vector times the scale, with NaN. -/
def scaleNanRow : Scale K → List (Option K) → Option (List (Option K))
  | .default, r => some r
  | .scalar s, r => some (r.map (fun v => mulNan v (some s)))
  | .vector [s], r => some (r.map (fun v => mulNan v (some s)))
  | .vector l, r => if r.length = l.length then some (List.zipWith (fun v s => mulNan v (some s)) r l) else none

/-! ### Evaluation -/

/-- A new array: shape and items. -/
abbrev Items (K : Type) := List Nat × List (Option K)

/-- A new array of NaN and numbers. -/
def junkNan (junk : Nat → List K) (n : Nat) : List (Option K) := (junk n).map some

/-- The rows of `empty(...)` assigned to. -/
def filled (junk : Nat → List K) (rows : List (Option (List (Option K)))) : List (Option K) :=
  rows.flatMap (fun r => r.getD (junkNan junk 3))

/-- `result += ...`, model_composed.py line 103: the same shapes (other ways of broadcasting are not modelled). -/
def addArrays (a b : Items K) : Except Failure (Items K) := do
  let r ← called (zipNd addNan (newArray a.1 a.2) (newArray b.1 b.2))
  let xs ← called (itemsNd r)
  return (r.arr.dim, xs)

/-- A model without components, model_composed.py lines 105-109. -/
def emptyResult (time : NdArray (X K)) (loc : NdArray K) : Except Failure (Items K) := do
  let shape := if time.arr.dim.length + 1 > loc.arr.dim.length then time.arr.dim ++ [3] else loc.arr.dim
  let md := time.arr.dim
  if shape.take md.length = md then do
    let ts ← called (itemsNd time)
    let n := (shape.drop md.length).prod
    return (shape, ts.flatMap (fun t => List.replicate n (match t with | .nan => none | _ => some 0)))
  else .error (.shape .indexError)

/-- Rotation of the result, model_composed.py lines 111-121; other types of the output than 0 and 2 leave it as it is. -/
def rotateResult (L : Libm K) (junk : Nat → List K) (ctIn ctOut : Int) (loc coordSph : NdArray K)
    (result : Items K) : Except Err (Items K) :=
  let a := newArray result.1 result.2
  if ctOut = 0 then do
    let coordOut ← if ctIn = 0 then .ok loc else convertNd L junk coordSph 1 0
    let dlat ← zipNd (fun a b => a - b) (lastIndex coordOut 0) (lastIndex coordSph 0)
    vrot1Arr (vrotSph2geodNan L) (junkNan junk) a dlat
  else if ctOut = 2 then
    vrot2Arr (vrotSph2cartNan L) (junkNan junk) a (lastIndex coordSph 0) (lastIndex coordSph 1)
  else .ok result

/-- `result *= final_scale`, model_composed.py lines 124-125. -/
def scaleResult (scale : Scale K) (result : Items K) : Except Err (Items K) := do
  let n := result.1.getLastD 0
  checkScale scale n
  let rows ← orValueError ((rowsOf result.1.dropLast.prod n result.2).mapM (scaleNanRow scale))
  return (result.1, rows.flatten)

variable [LinearOrder K] [FloorRing K]

/-- A model evaluated by the default method is not modelled (there is none, theorem `C75_components`). -/
def orNotModelled (r : Option (Except Failure (Items K))) : Except Failure (Items K) := r.getD (.error (.call .systemError))

mutual
/-- `eval` of the models, model_composed.py lines 79-127 for the composed ones. -/
def evalMember {St : Type} (L : Libm K) (env : MioEnv K St) : Member K → NdArray (X K) → NdArray K → Int → Int → Scale K →
    Args K → Except Failure (Items K)
  | .sh c, time, loc, ctIn, ctOut, scale, args =>
    orNotModelled (evalCoefficients env.toEnv c time loc ctIn ctOut (args.options scale))
  | .dipole c latNgp lonNgp, time, loc, ctIn, ctOut, scale, args =>
    orNotModelled (evalDipole L env.toEnv latNgp lonNgp c time loc ctIn ctOut (args.options scale))
  | .mio m, time, loc, ctIn, ctOut, scale, args =>
    evalMio L env m time loc args.f107 args.latSol args.lonSol ctIn ctOut (args.options scale)
  | .primary below above height radius, time, loc, ctIn, ctOut, scale, args => do
    let r ← evalPrimary L env below above height radius time loc args.f107 args.latSol args.lonSol ctIn ctOut
      (args.options scale)
    return (r.1, filled env.junk r.2)
  | .composed items, time, loc, ctIn, ctOut, scale, args => do
    let coordSph ← called (convertNd L env.junk loc ctIn 1)                    -- lines 88-90
    let result ← evalItems L env items time loc coordSph args
    let result ← called (rotateResult L env.junk ctIn ctOut loc coordSph result)
    called (scaleResult scale result)

/-- The components, model_composed.py lines 95-109. -/
def evalItems {St : Type} (L : Libm K) (env : MioEnv K St) : List (Member K × Scale K × Args K) → NdArray (X K) →
    NdArray K → NdArray K → Args K → Except Failure (Items K)
  | [], time, loc, _, _ => emptyResult time loc
  | (m, scale, params) :: rest, time, _, coordSph, args => do
    let first ← evalMember L env m time coordSph 1 1 scale (args.update params)
    evalRest L env rest time coordSph args first

/-- The loop over the other components, model_composed.py lines 100-103. -/
def evalRest {St : Type} (L : Libm K) (env : MioEnv K St) : List (Member K × Scale K × Args K) → NdArray (X K) →
    NdArray K → Args K → Items K → Except Failure (Items K)
  | [], _, _, _, result => .ok result
  | (m, scale, params) :: rest, time, coordSph, args, result => do
    let r ← evalMember L env m time coordSph 1 1 scale (args.update params)
    let sum ← addArrays result r
    evalRest L env rest time coordSph args sum
end
end

end Verif.ComposedField
