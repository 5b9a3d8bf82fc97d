/-
Model of the models in the frame of the magnetic dipole, on arrays: the functions of the dipole
coordinates and the class DipoleSphericalHarmomicGeomagneticModel.
Source: eoxmagmod/eoxmagmod/dipole_coords.py, dipole.py, magnetic_model/model.py
-/
import Verif.Model.FieldTree

namespace Verif.Field

open Verif.Buf Verif.Geo Verif.Arr Verif.Coeffs Verif.ModelEval

variable {K : Type} [Field K]

/-- `convert`, pymm_cconv.h lines 148-205, as an array (the array of the caller for equal coordinate types). -/
def convertNd (L : Libm K) (junk : Nat → List K) (a : NdArray K) (ctIn ctOut : Int) : Except Err (NdArray K) := do
  match ← convertArr L junk a ctIn ctOut with
  | .same => return a
  | .fresh dims data => return newArray dims data

/-- The product of one row and the matrix. -/
def dotRow (m : M3 K) : List K → Option (List K)
  | [x, y, z] => let v := dot ⟨x, y, z⟩ m; some [v.x, v.y, v.z]
  | _ => none

/-- `numpy.dot(a, m)` of an array and a matrix of 3 x 3 items: a new array; `ValueError` if the
last dimension is not 3 (arrays without dimensions do not get here). -/
def dotNd (a : NdArray K) (m : M3 K) : Except Err (NdArray K) := do
  let xs ← orMemory (readAll a.mem a.arr.dim a.arr.stride a.arr.data)
  let rows ← orValueError ((rowsOf a.arr.dim.dropLast.prod (a.arr.dim.getLastD 0) xs).mapM (dotRow m))
  return newArray a.arr.dim rows.flatten

/-- `a[..., k]` -/
def lastIndex (a : NdArray K) (k : Nat) : NdArray K :=
  ⟨a.mem, ⟨a.arr.data + k * a.arr.stride.getLastD 0, a.arr.dim.dropLast, a.arr.stride.dropLast⟩⟩

/-- `convert_to_dipole`, dipole_coords.py lines 57-71. -/
def convertToDipoleNd (L : Libm K) (junk : Nat → List K) (coords : NdArray K) (latNgp lonNgp : K) (ctIn : Int) :
    Except Err (NdArray K) := do
  let c ← convertNd L junk coords ctIn 2
  let c ← dotNd c (dipoleMatrix L latNgp lonNgp)
  convertNd L junk c 2 1

/-- `vrot_from_dipole`, dipole_coords.py lines 74-87; `out` are the latitudes and longitudes of the
output, `none` for `None` (which is not used with the other output coordinates). -/
def vrotFromDipoleNd (L : Libm K) (junk : Nat → List K) (vectors : NdArray K) (latNgp lonNgp : K)
    (latDipole lonDipole : NdArray K) (out : Option (NdArray K × NdArray K)) (ctOut : Int) : Except Err (NdArray K) := do
  let v ← vrot2Arr (vrotSph2cart L) junk vectors latDipole lonDipole
  let v ← dotNd (newArray v.1 v.2) (dipoleMatrix L latNgp lonNgp).transpose
  if ctOut = 2 then
    return v
  else
    let o ← orValueError out
    let r ← vrot2Arr (vrotCart2sph L) junk v o.1 o.2
    return newArray r.1 r.2

/-- `rotate_vectors_from_dipole`, dipole.py lines 92-110. -/
def rotateVectorsFromDipoleNd (L : Libm K) (junk : Nat → List K) (vectors : NdArray K) (latNgp lonNgp : K)
    (coordsDipole coordIn : NdArray K) (ctIn ctOut : Int) : Except Err (NdArray K) :=
  if ctOut = 2 then
    vrotFromDipoleNd L junk vectors latNgp lonNgp (lastIndex coordsDipole 0) (lastIndex coordsDipole 1) none ctOut
  else do
    let c ← convertNd L junk coordIn ctIn ctOut
    vrotFromDipoleNd L junk vectors latNgp lonNgp (lastIndex coordsDipole 0) (lastIndex coordsDipole 1)
      (some (lastIndex c 0, lastIndex c 1)) ctOut

/-- One vector times the scale. -/
def scaleRow : Scale K → List K → Option (List K)
  | .default, r => some r
  | .scalar s, r => some (r.map (fun v => v * s))
  | .vector [s], r => some (r.map (fun v => v * s))
  | .vector l, r => if r.length = l.length then some (List.zipWith (fun v s => v * s) r l) else none

/-- Broadcasting of the scale to vectors of `n` items. -/
def checkScale (scale : Scale K) (n : Nat) : Except Err Unit :=
  match scale with
  | .vector l => if l.length ≠ 1 ∧ l.length ≠ n then .error .valueError else .ok ()
  | _ => .ok ()

/-- `result *= scale`, model.py lines 268-269: items of the result; `ValueError` for a scale of another
number of items than one and three.  Scales of more dimensions than one are not modelled. -/
def scaleNd (scale : Scale K) (a : NdArray K) : Except Err (List K) := do
  let n := a.arr.dim.getLastD 0
  let xs ← orMemory (readAll a.mem a.arr.dim a.arr.stride a.arr.data)
  checkScale scale n
  let rows ← orValueError ((rowsOf a.arr.dim.dropLast.prod n xs).mapM (scaleRow scale))
  return rows.flatten

section
variable [LinearOrder K] [FloorRing K]

/-- `_eval` of `DipoleSphericalHarmomicGeomagneticModel`, model.py lines 247-266: before the scaling. -/
def evalDipoleUnscaled {St : Type} (L : Libm K) (env : Env K St) (latNgp lonNgp : K) (c : Component K)
    (time : NdArray (X K)) (loc : NdArray K) (ctIn ctOut : Int) (opt : Options K) : Except Err (NdArray K) := do
  let locDipole ← convertToDipoleNd L env.junk loc latNgp lonNgp ctIn
  let result ← evalComponent env c time locDipole 1 1 { opt with scale := .default }
  rotateVectorsFromDipoleNd L env.junk (newArray locDipole.arr.dim result) latNgp lonNgp locDipole loc ctIn ctOut

/-- `_eval` of `DipoleSphericalHarmomicGeomagneticModel`, model.py lines 247-271, around the evaluation
of the components: items of the result. -/
def evalDipoleComponent {St : Type} (L : Libm K) (env : Env K St) (latNgp lonNgp : K) (c : Component K)
    (time : NdArray (X K)) (loc : NdArray K) (ctIn ctOut : Int) (opt : Options K) : Except Err (List K) := do
  let result ← evalDipoleUnscaled L env latNgp lonNgp c time loc ctIn ctOut opt
  scaleNd opt.scale result

/-- `DipoleSphericalHarmomicGeomagneticModel(coefficients, north_pole).eval(...)`, model.py lines 75-77,
122-157 and 243-271. -/
def evalDipole {St : Type} (L : Libm K) (env : Env K St) (latNgp lonNgp : K) (coefficients : Tree (Ext K) (Sparse K))
    (time : NdArray (X K)) (loc : NdArray K) (ctIn ctOut : Int) (opt : Options K) :
    Option (Except Failure (List Nat × List (Option K))) :=
  (componentsOf coefficients).map (fun parts =>
    evalModelWith (fun c time loc => evalDipoleComponent L env latNgp lonNgp c time loc ctIn ctOut opt) parts time loc)
end

end Verif.Field
