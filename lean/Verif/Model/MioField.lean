/-
Model of the evaluation of the MIO models on arrays.
Source: eoxmagmod/eoxmagmod/magnetic_model/model_mio.py, coefficients_mio.py, model.py, util.py,
        eoxmagmod/eoxmagmod/magnetic_time.py, solar_position.py

The times are doubles which may be NaN or infinite, the items of F10.7 are finite or NaN (`none`), all other
numbers are finite.  The items of a result are `none` where they are NaN.
-/
import Verif.Model.DipoleModel
import Verif.Model.Mio

namespace Verif.MioField

open Verif.Buf Verif.Geo Verif.Arr Verif.Coeffs Verif.ModelEval Verif.Field

variable {K : Type}

/-- `SparseSHCoefficientsMIO`, coefficients_mio.py lines 47-87, with the default conversion of the times: rows of `ns`
by `np` pairs. -/
structure MioCoef (K : Type) where
  entries : List ((Int × Int) × List (K × K))
  ns : Nat
  np : Nat
  pmin : Int
  smin : Int
  vs : X K
  ve : X K
  isInternal : Bool

/-- `DipoleMIOGeomagneticModel`, model_mio.py lines 123-149. -/
structure MioModel (K : Type) where
  coef : MioCoef K
  latNgp : K
  lonNgp : K
  wolf : K

/-- What happens in C besides the arguments of the functions. -/
structure MioEnv (K St : Type) extends Env K St where
  junk2 : Nat → K × K
  tan : K → K

/-! ### Operations of NumPy -/

/-- All items of an array in C order. -/
def itemsNd {A : Type} (a : NdArray A) : Except Err (List A) :=
  orMemory (readAll a.mem a.arr.dim a.arr.stride a.arr.data)

/-- A function of one argument applied item by item. -/
def mapNd {A B : Type} (f : A → B) (a : NdArray A) : Except Err (NdArray B) := do
  let xs ← itemsNd a
  return newArray a.arr.dim (xs.map f)

/-- A function of two arguments applied item by item; arrays of the same dimensions, or one of them without dimensions.
Other ways of broadcasting are not modelled: `ValueError` here. -/
def zipNd {A B C : Type} (f : A → B → C) (a : NdArray A) (b : NdArray B) : Except Err (NdArray C) := do
  let xs ← itemsNd a
  let ys ← itemsNd b
  if a.arr.dim = b.arr.dim then
    return newArray a.arr.dim (List.zipWith f xs ys)
  else if b.arr.dim = [] then
    return newArray a.arr.dim (xs.flatMap (fun x => ys.map (f x)))
  else if a.arr.dim = [] then
    return newArray b.arr.dim (ys.flatMap (fun y => xs.map (fun x => f x y)))
  else
    .error .valueError

/-- `a[mask]` (also `a[mask, :]`) for a mask of the dimensions `md`, which may be none: the mask covers the leading
dimensions, which are replaced by one; `IndexError` if they differ. -/
def maskNd {A : Type} (md : List Nat) (mask : List Bool) (a : NdArray A) : Except Failure (NdArray A) :=
  if a.arr.dim.take md.length = md then do
    let rest := a.arr.dim.drop md.length
    let xs ← called (itemsNd a)
    return newArray (mask.count true :: rest) (pick mask (rowsOf md.prod rest.prod xs)).flatten
  else .error (.shape .indexError)

/-- `_subset`, model_mio.py lines 156-162. -/
def subset {A : Type} (md : List Nat) (mask : List Bool) (a : Option (NdArray A)) : Except Failure (Option (NdArray A)) :=
  match a with
  | none => .ok none
  | some a => if a.arr.dim.length > 0 then (maskNd md mask a).map some else .ok (some a)

/-- A number as an array. -/
def scalarNd {A : Type} (a : A) : NdArray A := newArray [] [a]

section
variable [Field K] [LinearOrder K] [FloorRing K]

/-! ### Magnetic universal time -/

/-- `sunpos(mjd2000, 0, 0, rad=0)`, solar_position.py lines 37-58, and `get_subsol`, magnetic_time.py lines 59-62. -/
def getSubsol {St : Type} (L : Libm K) (env : MioEnv K St) (time : NdArray (X K)) : Except Err (NdArray K × NdArray K) := do
  let r ← sunposArr L env.tan env.junk ⟨finMem time.mem, time.arr⟩ (scalarNd 0) (scalarNd 0) (scalarNd 0) (scalarNd 0)
  let lon ← mapNd (fun h => -h) (lastIndex r 2)
  return (lastIndex r 0, lon)

/-- The sub-solar point, magnetic_time.py lines 51-52. -/
def subsolar {St : Type} (L : Libm K) (env : MioEnv K St) (time : NdArray (X K)) (lat lon : Option (NdArray K)) :
    Except Err (NdArray K × NdArray K) :=
  match lat, lon with
  | some la, some lo => .ok (la, lo)
  | _, _ => getSubsol L env time

/-- `mjd2000_to_magnetic_universal_time`, magnetic_time.py lines 38-76; the operations of lines 67-76 are applied item by
item. -/
def magneticTimes {St : Type} (L : Libm K) (env : MioEnv K St) (time : NdArray (X K)) (latNgp lonNgp : K)
    (lat lon : Option (NdArray K)) : Except Err (NdArray K) := do
  let s ← subsolar L env time lat lon
  zipNd (magneticUniversalTime L latNgp lonNgp) s.1 s.2

/-! ### Evaluation -/

/-- `get_f2fs_coeff_set`, coefficients_mio.py lines 56-66, with `SCALE_SEASONAL` and `SCALE_DIURNAL`, lines 40-41. -/
def MioCoef.fourierSet (L : Libm K) (c : MioCoef K) (minDegree maxDegree : Int) : RawFourier K :=
  let sub := (subsetDegree c.entries minDegree maxDegree).2
  ⟨sub.map Prod.snd, c.ns, c.np, sub.map Prod.fst, c.smin, c.pmin, 2 * L.pi, 2 * L.pi / 24⟩

/-- `_eval_fourier2d`, model_mio.py lines 198-220. -/
def evalFourier2d {St : Type} (L : Libm K) (env : MioEnv K St) (m : MioModel K) (time : NdArray (X K)) (loc : NdArray K)
    (lat lon : Option (NdArray K)) (ctIn ctOut : Int) (opt : Options K) : Except Err (List K) := do
  let yf ← mjd2000ToYearFractionArr env.year env.junkX time
  let mt ← magneticTimes L env time m.latNgp m.lonNgp lat lon
  let r ← sheval2dfsArr L.cos L.sin env.evalP env.start env.junk env.junk2 ⟨finMem yf.mem, yf.arr⟩ mt loc
    (m.coef.fourierSet L opt.minDegree opt.maxDegree) ctIn ctOut 2 m.coef.isInternal 1 (negScale opt.scale)
  orMemory r.grd

/-- `_eval` of `DipoleSphericalHarmomicGeomagneticModel`, model.py lines 247-271, with `_eval_fourier2d`. -/
def evalMioPoints {St : Type} (L : Libm K) (env : MioEnv K St) (m : MioModel K) (time : NdArray (X K)) (loc : NdArray K)
    (lat lon : Option (NdArray K)) (ctIn ctOut : Int) (opt : Options K) : Except Err (List K) := do
  let locDipole ← convertToDipoleNd L env.junk loc m.latNgp m.lonNgp ctIn
  let result ← evalFourier2d L env m time locDipole lat lon 1 1 { opt with scale := .default }
  let result ← rotateVectorsFromDipoleNd L env.junk (newArray locDipole.arr.dim result) m.latNgp m.lonNgp locDipole loc ctIn
    ctOut
  scaleNd opt.scale result

/-- `(time >= start) & (time <= end)`, model_mio.py line 180. -/
def MioCoef.isValid (c : MioCoef K) (t : X K) : Bool := X.le c.vs t && X.le t c.ve

/-- `1.0 + self.wolf_ratio * asarray(mio_scale)`, model_mio.py lines 174-176. -/
def factors (wolf : K) (f107 : Option (NdArray (Option K))) : Except Err (Option (NdArray (Option K))) :=
  match f107 with
  | none => .ok none
  | some f => (mapNd (Mio.f107Scale wolf) f).map some

/-- `(time >= start) & (time <= end) & mask`, model_mio.py lines 172-180. -/
def maskOf (c : MioCoef K) (time : NdArray (X K)) (scale : Option (NdArray (Option K))) : Except Err (NdArray Bool) := do
  let valid ← mapNd c.isValid time
  match scale with
  | none => return valid
  | some s => zipNd (fun b s => b && s.isSome) valid s

/-- Product of items which may be NaN. -/
def mulNan : Option K → Option K → Option K
  | some a, some b => some (a * b)
  | _, _ => none

/-- `result *= mio_scale`, model_mio.py lines 191-194: `result` has the given shape. -/
def timesScale (shape : List Nat) (scale : Option (NdArray (Option K))) (result : List (Option K)) :
    Except Failure (List (Option K)) :=
  match scale with
  | none => .ok result
  | some s =>
    if s.arr.dim.length > 0 then
      match Shapes.reshapeArray shape s.arr with
      | .error e => .error (.shape e)
      | .ok sa => do
        let xs ← called (itemsNd ⟨s.mem, sa⟩)
        return List.zipWith mulNan result xs
    else do
      let x ← called (orMemory (s.mem s.arr.data))
      return result.map (fun r => mulNan r x)

/-- `DipoleMIOGeomagneticModel.eval`, model_mio.py lines 151-196: shape and items of the result. -/
def evalMio {St : Type} (L : Libm K) (env : MioEnv K St) (m : MioModel K) (time : NdArray (X K)) (loc : NdArray K)
    (f107 : Option (NdArray (Option K))) (lat lon : Option (NdArray K)) (ctIn ctOut : Int) (opt : Options K) :
    Except Failure (List Nat × List (Option K)) :=
  match Shapes.reshapeTimesAndCoordinates time.arr loc.arr with
  | .error e => .error (.shape e)
  | .ok (ta, la) => do
    let scale ← called (factors m.wolf f107)
    let mask ← called (maskOf m.coef ⟨time.mem, ta⟩ scale)
    let md := mask.arr.dim
    let mk ← called (itemsNd mask)
    let tk ← maskNd md mk ⟨time.mem, ta⟩
    let lk ← maskNd md mk ⟨loc.mem, la⟩
    let latk ← subset md mk lat
    let lonk ← subset md mk lon
    let g ← called (evalMioPoints L env m tk lk latk lonk ctIn ctOut opt)
    let n := (la.dim.drop md.length).prod
    let result := flatRows n (put mk (rowsOf (mk.count true) n g) (List.replicate md.prod none))
    let scaled ← timesScale la.dim scale result
    return (la.dim, scaled)

/-! ### The primary field -/

/-- `mask_array`, util.py lines 97-101, with `min_ndim` 0. -/
def maskArray {A : Type} (md : List Nat) (mask : List Bool) (a : NdArray A) : Except Failure (NdArray A) :=
  if a.arr.dim.length > 0 then maskNd md mask a else .ok a

/-- `_mask_option`, model_mio.py lines 89-92. -/
def maskOption {A : Type} (md : List Nat) (mask : List Bool) (a : Option (NdArray A)) :
    Except Failure (Option (NdArray A)) :=
  match a with
  | none => .ok none
  | some a => (maskArray md mask a).map some

/-- `_eval_model`, model_mio.py lines 87-101: rows of the result, `none` where nothing was assigned to. -/
def evalLayer {St : Type} (L : Libm K) (env : MioEnv K St) (m : MioModel K) (time : NdArray (X K)) (loc : NdArray K)
    (f107 : Option (NdArray (Option K))) (lat lon : Option (NdArray K)) (ctOut : Int) (opt : Options K) (md : List Nat)
    (mask : List Bool) (result : List (Option (List (Option K)))) : Except Failure (List (Option (List (Option K)))) := do
  let f107 ← maskOption md mask f107
  let lat ← maskOption md mask lat
  let lon ← maskOption md mask lon
  let tk ← maskArray md mask time
  let lk ← maskNd md mask loc
  let r ← evalMio L env m tk lk f107 lat lon 1 ctOut opt
  return put mask (rowsOf (mask.count true) 3 r.2) result

/-- `MIOPrimaryGeomagneticModel.eval`, model_mio.py lines 73-111: shape and rows of the result, `none` where `empty` has not
been assigned to. -/
def evalPrimary {St : Type} (L : Libm K) (env : MioEnv K St) (below above : MioModel K) (height radius : K)
    (time : NdArray (X K)) (loc : NdArray K) (f107 : Option (NdArray (Option K))) (lat lon : Option (NdArray K))
    (ctIn ctOut : Int) (opt : Options K) : Except Failure (List Nat × List (Option (List (Option K)))) := do
  let loc ← called (convertNd L env.junk loc ctIn 1)
  let ionosphere := height + radius
  let mask ← called (mapNd (fun r => decide (r ≤ ionosphere)) (lastIndex loc 2))
  let md := mask.arr.dim
  let mk ← called (itemsNd mask)
  let result := List.replicate md.prod none
  let result ← evalLayer L env below time loc f107 lat lon ctOut opt md mk result
  let result ← evalLayer L env above time loc f107 lat lon ctOut opt md (mk.map (fun b => !b)) result
  return (loc.arr.dim, result)
end

end Verif.MioField
