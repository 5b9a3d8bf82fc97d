/-
Model of the constructors of the coefficient classes with arrays as arguments.
Source: eoxmagmod/eoxmagmod/magnetic_model/coefficients.py, util.py

The degrees and orders are integers, the times and coefficients doubles (NaN times are not considered: their order is
not modelled).  A keyword argument is `none` if it is not given and `some none` if it is `None`.
-/
import Verif.Model.VectorUtil

namespace Verif.CoefInit

open Verif Verif.Arr Verif.Coeffs Verif.Interp Verif.Field Verif.MioField Verif.VectorUtil

variable {K : Type} [Field K] [LinearOrder K]

/-- `ValueError` of Python. -/
def valueError {A : Type} : Except Failure A := .error (.shape .valueError)

/-- `IndexError` of Python. -/
def indexError {A : Type} : Except Failure A := .error (.shape .indexError)

/-- The keyword arguments of the constructors, coefficients.py lines 59-64. -/
structure Keywords (K : Type) where
  start : Option (Option (X K))
  stop : Option (Option (X K))
  toMjd : Option (X K → X K)
  isInternal : Bool

/-- `convert_value`, util.py lines 50-54. -/
def convertValue {A : Type} (v : A) (f : Option (A → A)) : A :=
  match f with
  | none => v
  | some f => f v

/-- `_get_converted_validity`, coefficients.py lines 63-81. -/
def convertedValidity (start stop : Option (X K)) (toMjd : Option (X K → X K)) : X K × X K :=
  (convertValue (start.getD .ninf) toMjd, convertValue (stop.getD .pinf) toMjd)

/-- `astype('int32')` -/
def wrap32 (n : Int) : Int := (n + 2 ^ 31) % 2 ^ 32 - 2 ^ 31

/-- Attributes set by `SparseSHCoefficients.__init__`. -/
structure SparseAttrs (K : Type) where
  isInternal : Bool
  validity : X K × X K
  degree : Int
  minDegree : Int
  nm : NdArray Int
  index : List (Int × Bool)

/-- `SparseSHCoefficients.__init__`, coefficients.py lines 349-359; keyword arguments which are not given are `None`
(lines 64-65).  The coefficients are stored as they are. -/
def sparseInit (indices : NdArray Int) (kw : Keywords K) : Except Failure (SparseAttrs K) := do
  let validity := convertedValidity (kw.start.getD none) (kw.stop.getD none) kw.toMjd
  let nIdx ← lastItem indices 0
  let mIdx ← lastItem indices 1
  let ns ← called (itemsNd nIdx)
  let ms ← called (itemsNd mIdx)
  match ns.max?, ns.min? with
  | some degree, some minDegree =>
    let nm ← called (mapNd wrap32 indices)
    return ⟨kw.isInternal, validity, degree, minDegree, nm, List.zipWith (fun n m => (rowIdx n m, colIdx m)) ns ms⟩
  | _, _ => valueError

/-- The check of the dimensions of the indices, coefficients.py lines 424-425 and 494-495:
`indices.ndim != 2 and indices.shape[1] != 2`. -/
def checkIndices (d : List Nat) : Except Failure Unit :=
  if d.length ≠ 2 then
    match d[1]? with
    | none => indexError
    | some k => if k ≠ 2 then valueError else .ok ()
  else .ok ()

/-- Attributes of `SparseSHCoefficientsTimeDependent`. -/
structure TimeDependent (K : Type) extends SparseAttrs K where
  times : List (X K)
  coeff : List (List (X K))
  kind : Kind

/-- `SparseSHCoefficientsTimeDependent.__init__`, coefficients.py lines 412-459. -/
def timeDependentInit (indices : NdArray Int) (coefficients times : NdArray (X K)) (splineOrder : Int) (kw : Keywords K) :
    Except Failure (TimeDependent K) := do
  if times.arr.dim.length ≠ 1 then valueError
  else if coefficients.arr.dim.length ≠ 2 then valueError
  else
    checkIndices indices.arr.dim
    if indices.arr.dim[0]? ≠ coefficients.arr.dim[0]? then valueError
    else if times.arr.dim[0]? ≠ coefficients.arr.dim[1]? then valueError
    else
      let ts ← called (itemsNd times)
      let cs ← called (itemsNd coefficients)
      let rows := rowsOf (coefficients.arr.dim.getD 0 0) (coefficients.arr.dim.getD 1 0) cs
      let order := argsort ts
      let ts := order.map (fun i => ts.getD i .nan)
      let rows := rows.map (fun row => order.map (fun i => row.getD i .nan))
      match ts.head?, ts.getLast? with
      | some first, some last =>
        let sp ← sparseInit indices { kw with start := some (kw.start.getD (some first)), stop := some (kw.stop.getD (some last)) }
        let ts := ts.map (fun t => convertValue t kw.toMjd)
        if splineOrder = 1 then return ⟨sp, ts, rows, .c0⟩
        else if splineOrder = 2 then return ⟨sp, ts, rows, .c1⟩
        else valueError
      | _, _ => indexError

/-- `SparseSHCoefficientsConstant.__init__`, coefficients.py lines 486-510. -/
def constantInit (indices : NdArray Int) (coefficients : NdArray (X K)) (kw : Keywords K) :
    Except Failure (TimeDependent K) := do
  if coefficients.arr.dim.length ≠ 1 then valueError
  else
    checkIndices indices.arr.dim
    if indices.arr.dim[0]? ≠ coefficients.arr.dim[0]? then valueError
    else
      let cs ← called (itemsNd coefficients)
      timeDependentInit indices (newArray (coefficients.arr.dim ++ [1]) cs) (newArray [1] [.ninf]) 1
        { kw with start := some (kw.start.getD (some .ninf)), stop := some (kw.stop.getD (some .pinf)) }

/-- `SparseSHCoefficientsTimeDependentDecimalYear.__init__`, coefficients.py lines 520-531: the conversion of the
validity only (`to_mjd2000` is not passed on). -/
def decimalYearInit (indices : NdArray Int) (coefficients times : NdArray (X K)) (splineOrder : Int) (kw : Keywords K) :
    Except Failure (TimeDependent K) := do
  let td ← timeDependentInit indices coefficients times splineOrder { kw with toMjd := none }
  return { td with validity := convertedValidity (some td.validity.1) (some td.validity.2) kw.toMjd }

/-- Failures of the constructor of the MIO coefficients: those of the base class, `Exception`. -/
inductive MioError
  | failure (f : Failure)
  | extent

/-- `SparseSHCoefficientsMIO.__init__`, coefficients_mio.py lines 69-77.  The extent is (pmin, pmax, smin, smax). -/
def mioInit (indices : NdArray Int) (psExtent : Int × Int × Int × Int) (kw : Keywords K) :
    Except MioError (SparseAttrs K × Int × Int × Int × Int) :=
  match sparseInit indices kw with
  | .error e => .error (.failure e)
  | .ok sp =>
    let (pmin, pmax, smin, smax) := psExtent
    if pmin > pmax ∨ smin > smax then .error .extent
    else .ok (sp, pmin, pmax, smin, smax)

end Verif.CoefInit
