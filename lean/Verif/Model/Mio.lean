/-
Model of the MIO (magnetosphere-ionosphere) models.
Source: eoxmagmod/eoxmagmod/magnetic_model/model_mio.py, loader_mio.py,
        coefficients_mio.py, util.py (`mask_array`)
-/
import Verif.Model.Geo
import Verif.Model.Fourier
import Verif.Model.ModelEval
import Mathlib.Order.Defs.LinearOrder

namespace Verif.Mio

open Verif.Geo Verif.ModelEval

variable {K : Type} [Field K]

/-! ### Coefficients -/

/-- `MIO_EARTH_RADIUS`, model_mio.py line 41. -/
def earthRadius : K := 63712 / 10

/-- One item of `scale`, loader_mio.py lines 131-133; the power of a negative number to an
odd integer exponent held as a float. -/
def mioScale (height : K) (n : Nat) : K :=
  let nrrad := -(1 + height / earthRadius)
  ((n : K) / ((n : K) + 1)) * nrrad ^ (2 * n + 1)

/-- NumPy index into a vector: negative indices count from the end, `none` is
`IndexError`. -/
def pyIndex {A : Type} (l : List A) (i : Int) : Option A :=
  if 0 ≤ i then l[i.toNat]? else if 0 ≤ i + l.length then l[(i + l.length).toNat]? else none

/-- `convert_external_mio_coeff`, loader_mio.py lines 129-134.  The rows are the items of
the first axis of `coefficients` (pairs of the 2D Fourier series); `none` is an exception.
Broadcasting of a single row against more indices (and conversely) is not modelled. -/
def convertExternal (degree : Nat) (indices : List (Int × Int)) (coefficients : List (List (K × K)))
    (height : K) : Option (List (List (K × K))) := do
  let scale := (List.range (degree + 1)).map (mioScale height)
  let sc ← indices.mapM (fun nm : Int × Int => pyIndex scale nm.1)
  if indices.length ≠ coefficients.length then none
  else return List.zipWith (fun s row => row.map (fun ab : K × K => (s * ab.1, s * ab.2))) sc coefficients

/-! ### Arrays and masks -/

/-- N-dimensional array: shape and the items in C order. -/
structure ND (A : Type) where
  shape : List Nat
  data : List A

/-- Consecutive blocks of `w` items. -/
def blocks {A : Type} (w n : Nat) (l : List A) : List (List A) :=
  (List.range n).map (fun i => (l.drop (i * w)).take w)

/-- NumPy `data[mask]` with a boolean array: the mask covers the leading dimensions, which
are replaced by one dimension; `none` is `IndexError`. -/
def maskIndex {A : Type} (a : ND A) (m : ND Bool) : Option (ND A) :=
  if a.shape.take m.shape.length = m.shape then
    let rest := a.shape.drop m.shape.length
    some ⟨m.data.count true :: rest, (pick m.data (blocks rest.prod m.data.length a.data)).flatten⟩
  else none

/-- `mask_array`, util.py lines 97-101, with `min_ndim` 0. -/
def maskArray {A : Type} (a : ND A) (m : ND Bool) : Option (ND A) :=
  if a.shape.length > 0 then maskIndex a m else some a

/-- NumPy `result[mask] = values` with `values` of the shape of `result[mask]` (`none`
otherwise; broadcasting is not modelled). -/
def maskAssign {R : Type} (result : ND (Option R)) (m : ND Bool) (values : ND R) : Option (ND (Option R)) :=
  if result.shape = m.shape ∧ values.shape = [m.data.count true] then
    some ⟨result.shape, put m.data values.data result.data⟩
  else none

/-! ### The model of the primary field -/

/-- Arguments of `eval` of a MIO model: times, locations (without the last axis), options
which are arrays. -/
structure Args (T K : Type) where
  time : ND T
  location : ND (V3 K)
  f107 : Option (ND (Option K))
  latSol : Option (ND K)
  lonSol : Option (ND K)

/-- `_mask_option`, model_mio.py lines 89-92. -/
def maskOption {A : Type} (data : Option (ND A)) (m : ND Bool) : Option (Option (ND A)) :=
  match data with
  | none => some none
  | some d => (maskArray d m).map some

/-- `_eval_model`, model_mio.py lines 87-101; `sub` is `model.eval` with spherical input
and the requested output. -/
def evalMasked {T R : Type} (sub : Args T K → Option (ND R)) (args : Args T K) (m : ND Bool)
    (result : ND (Option R)) : Option (ND (Option R)) := do
  let f107 ← maskOption args.f107 m
  let latSol ← maskOption args.latSol m
  let lonSol ← maskOption args.lonSol m
  let time ← maskArray args.time m
  let location ← maskIndex args.location m
  let values ← sub ⟨time, location, f107, latSol, lonSol⟩
  maskAssign result m values

/-- `MIOPrimaryGeomagneticModel.eval`, model_mio.py lines 73-111.  `none` in the result is
an item of `empty` which was not written.  Finite locations. -/
def evalPrimary {T R : Type} [LinearOrder K] (L : Libm K) (below above : Args T K → Option (ND R))
    (height radius : K) (i : Int) (args : Args T K) : Option (ND (Option R)) := do
  let locs ← args.location.data.mapM (fun v => convert L v i 1)
  let location : ND (V3 K) := ⟨args.location.shape, locs⟩
  let radiusIonosphere := height + radius
  let mask : ND Bool := ⟨location.shape, location.data.map (fun v => decide (v.z ≤ radiusIonosphere))⟩
  let notMask : ND Bool := ⟨mask.shape, mask.data.map (fun b => !b)⟩
  let args := { args with location := location }
  let result : ND (Option R) := ⟨location.shape, location.data.map (fun _ => none)⟩
  let result ← evalMasked below args mask result
  evalMasked above args notMask result

/-! ### The dipole MIO model -/

/-- `reshape_times_and_coordinates` on the flat arrays (the strided form is in
Model/Shapes.lean): the times are repeated over the further dimensions of the locations;
`none` is an exception. -/
def reshapeTimes {T : Type} (time : ND T) (locShape : List Nat) : Option (ND T) :=
  if time.shape.length = 0 then some time
  else if locShape.take time.shape.length = time.shape then
    some ⟨locShape, time.data.flatMap (fun t => List.replicate (locShape.drop time.shape.length).prod t)⟩
  else none

/-- Value of a parameter at the k-th point: scalars are shared. -/
def ND.at {A : Type} (a : ND A) (k : Nat) : Option A :=
  if a.shape.length = 0 then a.data[0]? else a.data[k]?

/-- Optional parameter at the k-th point; the outer `none` is a missing item. -/
def optAt {A : Type} (a : Option (ND A)) (k : Nat) : Option (Option A) :=
  match a with
  | none => some none
  | some a => (a.at k).map some

/-- MIO scaling factor `1 + wolf_ratio * f107`, model_mio.py line 176; `none` is NaN. -/
def f107Scale (wolf : K) (f : Option K) : Option K := f.map (fun x => 1 + wolf * x)

/-- `mask`, model_mio.py lines 172-180: valid time and F10.7 not NaN; `none` for shapes
which cannot be combined (NumPy broadcasting other than with a scalar is not modelled). -/
def dipoleMask {T : Type} (valid : T → Bool) (wolf : K) (time : ND T) (f107 : Option (ND (Option K))) :
    Option (ND Bool) :=
  let tm := time.data.map valid
  match f107 with
  | none => some ⟨time.shape, tm⟩
  | some f =>
    let fm := f.data.map (fun x => (f107Scale wolf x).isSome)
    if f.shape = time.shape then some ⟨time.shape, List.zipWith (· && ·) tm fm⟩
    else if f.shape.length = 0 then some ⟨time.shape, tm.map (fun b => b && fm.headD true)⟩
    else if time.shape.length = 0 then some ⟨f.shape, fm.map (fun b => tm.headD true && b)⟩
    else none

/-- Shapes of the sub-solar point which are modelled: scalars and arrays of the shape of the
locations. -/
def parOk {A : Type} (a : Option (ND A)) (locShape : List Nat) : Bool :=
  match a with
  | none => true
  | some a => decide (a.shape = [] ∨ a.shape = locShape)

/-- `_eval` with `_eval_fourier2d` at the k-th point, model_mio.py lines 183-189: `base` is the
value at one time and location with the sub-solar point (its batch evaluates point by point,
C27). -/
def mioPoint {T : Type} (base : T → V3 K → Option K → Option K → Option (V3 K)) (args : Args T K) (time : ND T)
    (k : Nat) : Option (V3 K) := do
  let t ← time.at k
  let l ← args.location.data[k]?
  let la ← optAt args.latSol k
  let lo ← optAt args.lonSol k
  base t l la lo

/-- `result` before the scaling, model_mio.py lines 181-189.  `none` in the items of the result
is NaN.

With a scalar mask NumPy adds a leading axis of length one or zero to all the operands,
`time[mask]`, `location[mask, :]`, ..., which is left out here.  A scalar time with an
array mask (from an array of F10.7 values) raises `IndexError`. -/
def mioResult {T : Type} (base : T → V3 K → Option K → Option K → Option (V3 K)) (args : Args T K) (time : ND T)
    (mask : ND Bool) : Option (List (Option (V3 K))) :=
  let n := args.location.data.length
  let nans : List (Option (V3 K)) := args.location.data.map (fun _ => none)
  if mask.shape.length = 0 then do
    let m ← mask.data[0]?
    if m then do
      let vs ← (List.range n).mapM (mioPoint base args time)
      return vs.map some
    else return nans
  else if time.shape ≠ mask.shape ∨ args.location.shape ≠ mask.shape then none
  else do
    let vs ← (pick mask.data (List.range n)).mapM (mioPoint base args time)
    return put mask.data vs nans

/-- `result *= mio_scale`, model_mio.py lines 191-194; a NaN factor gives NaN. -/
def mioScaled (wolf : K) (f107 : Option (ND (Option K))) (n : Nat) (result : List (Option (V3 K))) :
    Option (List (Option (V3 K))) :=
  match f107 with
  | none => some result
  | some f =>
    (List.range n).mapM (fun k => do
      let r ← result[k]?
      let s ← f.at k
      return (do
        let s ← f107Scale wolf s
        let v ← r
        return (⟨s * v.x, s * v.y, s * v.z⟩ : V3 K)))

/-- `DipoleMIOGeomagneticModel.eval`, model_mio.py lines 151-196; `none` is an exception. -/
def evalDipoleMio {T : Type} (valid : T → Bool) (wolf : K)
    (base : T → V3 K → Option K → Option K → Option (V3 K)) (args : Args T K) :
    Option (ND (Option (V3 K))) :=
  if parOk args.latSol args.location.shape && parOk args.lonSol args.location.shape then do
    let time ← reshapeTimes args.time args.location.shape
    let mask ← dipoleMask valid wolf time args.f107
    let result ← mioResult base args time mask
    let scaled ← mioScaled wolf args.f107 args.location.data.length result
    return ⟨args.location.shape, scaled⟩
  else none

end Verif.Mio
