/-
Model of the functions of the dipole frame and of the magnetic universal time on arrays.
Source: eoxmagmod/eoxmagmod/magnetic_time.py, dipole.py

The items are finite.  The conversion of the arguments to arrays of doubles is not modelled.  `convert_to_dipole` and
`vrot_from_dipole` are in Model/DipoleModel.lean.
-/
import Verif.Model.VectorUtil

namespace Verif.DipoleArrays

open Verif.Buf Verif.Geo Verif.Arr Verif.Field Verif.MioField Verif.VectorUtil

variable {K : Type}

/-- `a *= b`: the result has the dimensions of `a`, `ValueError` if those of the product differ; without dimensions `a` is a
number and the product replaces it. -/
def timesInPlace [Field K] (a b : NdArray K) : Except Err (NdArray K) := do
  let r ← bcastNd (fun x y => x * y) a b
  if a.arr.dim = [] ∨ r.arr.dim = a.arr.dim then return r
  else .error .valueError

section
variable [Field K] [LinearOrder K] [FloorRing K]

/-- `_mjd2000_to_magnetic_universal_time`, magnetic_time.py lines 65-75. -/
def mutNd (L : Libm K) (latNgp lonNgp latSol lonSol : NdArray K) : Except Err (NdArray K) := do
  let latrSol ← mapNd (fun x => dg2rad L * x) latSol
  let latrNgp ← mapNd (fun x => dg2rad L * x) latNgp
  let dif ← bcastNd (fun x y => x - y) lonSol lonNgp
  let difLonr ← mapNd (fun x => dg2rad L * x) dif
  let tmpY ← mapNd L.cos latrSol
  let s ← mapNd L.sin latrNgp
  let s ← bcastNd (fun x y => x * y) s tmpY
  let c ← mapNd L.cos difLonr
  let s ← bcastNd (fun x y => x * y) s c
  let c ← mapNd L.cos latrNgp
  let d ← mapNd L.sin latrSol
  let c ← bcastNd (fun x y => x * y) c d
  let tmpX ← bcastNd (fun x y => x - y) s c
  let d ← mapNd L.sin difLonr
  let tmpY ← timesInPlace tmpY d
  let a ← bcastNd L.atan2 tmpY tmpX
  mapNd (fun x => 12 / L.pi * (L.pi - x)) a

/-- `get_subsol`, magnetic_time.py lines 59-62, with `sunpos`, solar_position.py lines 37-58. -/
def subsolNd (L : Libm K) (tan : K → K) (junk : Nat → List K) (mjd : NdArray K) : Except Err (NdArray K × NdArray K) := do
  let r ← sunposArr L tan junk mjd (scalarNd 0) (scalarNd 0) (scalarNd 0) (scalarNd 0)
  let lon ← mapNd (fun h => -h) (lastIndex r 2)
  return (lastIndex r 0, lon)

/-- `mjd2000_to_magnetic_universal_time`, magnetic_time.py lines 38-56. -/
def magneticTimeNd (L : Libm K) (tan : K → K) (junk : Nat → List K) (mjd latNgp lonNgp : NdArray K)
    (latSol lonSol : Option (NdArray K)) : Except Err (NdArray K) :=
  match latSol, lonSol with
  | some la, some lo => mutNd L latNgp lonNgp la lo
  | _, _ => do
    let s ← subsolNd L tan junk mjd
    mutNd L latNgp lonNgp s.1 s.2
end

/-- `sheval_dipole`, dipole.py lines 39-89; `sheval` is the one of Model/ArrayApi.lean. -/
def shevalDipoleNd {St : Type} [Field K] (L : Libm K) (fl : Nat → Int) (evalP : FullEval.Config K → Nat → Eval St K)
    (start : Nat → St) (junk : Nat → List K) (x coef : NdArray K) (latNgp lonNgp : K) (ctIn ctOut mode : Int)
    (isInternal : Bool) (degree : Int) (sp : K) (sg : Scale K) : Except Err (Result K) := do
  let d ← convertToDipoleNd L junk x latNgp lonNgp ctIn
  let r ← sheval fl evalP start junk d coef 1 1 mode isInternal degree sp .default
  if mode = 2 then
    let g ← orMemory r.grd
    let v ← rotateVectorsFromDipoleNd L junk (newArray (r.shape ++ [3]) g) latNgp lonNgp d x ctIn ctOut
    let s ← scaleNd sg v
    return ⟨r.shape, none, some s⟩
  else if mode = 1 then
    return r
  else
    let g ← orMemory r.grd
    let v ← rotateVectorsFromDipoleNd L junk (newArray (r.shape ++ [3]) g) latNgp lonNgp d x ctIn ctOut
    let s ← scaleNd sg v
    return ⟨r.shape, r.pot, some s⟩

end Verif.DipoleArrays
