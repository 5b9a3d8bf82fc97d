/-
Model of the Python functions of the quasi-dipole coordinates on arrays.
Source: eoxmagmod/eoxmagmod/quasi_dipole_coordinates.py, pyqd_eval_qdlatlon.h, pyqd_eval_mlt.h,
pyqd_eval_subsol.h, pymm_aux.h, qdipole/cqdipole.c

As in `ArrayApi` the arguments are arrays of doubles; the positions and the MJD2000 times are finite.  The contiguous
copies of the arguments are the lists of their items.  File names are values of the type `F` with the length in
bytes `bytes` and the result of `os.path.isfile` `isFile`.
-/
import Verif.Model.Qd
import Verif.Model.Mlt
import Verif.Model.MioField

namespace Verif.QdApi

open Verif Verif.Arr Verif.MioField Verif.Apex Verif.Qd Verif.Geo

/-- Ends of a call without a result: `IOError`, `RuntimeError`, an error of the arrays, the Fortran code stops the process. -/
inductive Failure where
  | ioError
  | runtimeError
  | array (e : Err)
  | stopped
deriving DecidableEq, Repr

/-- An error of the arrays. -/
def arrays {A : Type} : Except Err A → Except Failure A
  | .ok a => .ok a
  | .error e => .error (.array e)

/-- The process is stopped for `none`. -/
def orStopped {A : Type} : Option A → Except Failure A
  | some a => .ok a
  | none => .error .stopped

/-- `_get_as_double_array(obj, 0, 1, NPY_REQ, ...)`, pymm_aux.h lines 102-132: the items of the contiguous array; more than
one dimension is refused by `PyArray_FromAny`. -/
def asVector {A : Type} (a : NdArray A) : Except Failure (List A) :=
  if a.arr.dim.length > 1 then .error (.array .valueError) else arrays (itemsNd a)

/-- `_check_arr_dims_all_eq`, pymm_aux.h lines 209-233. -/
def checkDims {A : Type} (a : NdArray A) (dims : List Nat) : Except Failure Unit :=
  if a.arr.dim.length ≠ dims.length then .error (.array .valueError)
  else if (List.zipWith (fun x y => x != y) a.arr.dim dims).any id then .error (.array .valueError)
  else .ok ()

/-- The number of the points `ndim == 0 ? 1 : dims[0]` (pyqd_eval_qdlatlon.h lines 174 and 203, pyqd_eval_mlt.h line 91,
pyqd_eval_subsol.h line 86)
passed as an `int` (cqdipole.c lines 72, 84, 98, 121): conversion modulo 2^32; the loops over a negative number of points do nothing. -/
def pointCount (dims : List Nat) : Nat :=
  let n := match dims with
    | [] => 1
    | n :: _ => n
  ((((n : Int) + 2 ^ 31) % 2 ^ 32) - 2 ^ 31).toNat

/-- The first `n` items of an argument; less of them are read out of its memory. -/
def firstN {A : Type} (n : Nat) (xs : List A) : Except Failure (List A) :=
  if xs.length < n then .error (.array .memory) else .ok (xs.take n)

/-- A new array (`PyArray_EMPTY`) with the first items set. -/
def outArray {K : Type} (junk : Nat → K) (dims : List Nat) (vals : List K) : NdArray K :=
  newArray dims (vals ++ ((List.range dims.prod).map junk).drop vals.length)

/-- `MAX_PATH_LENGTH`, cqdipole.c line 40. -/
def maxName : Nat := 1023

/-- The arguments as they are read by the Fortran code. -/
def readPoints {K : Type} (time : List (X K)) (rad lat lon : List K) : List (Pt K) :=
  List.zipWith (fun (a : X K × K) (b : K × K) => ⟨a.1, a.2, b.1, b.2⟩) (time.zip rad) (lat.zip lon)

section
variable {F K : Type} [DecidableEq F] [Field K] [LinearOrder K]

/-- `_pyqd.eval_qdlatlon`, pyqd_eval_qdlatlon.h lines 58-241, with `c_eval_qdlatlon` and `c_eval_qdlatlonvb`, cqdipole.c lines 96-134.
The reading of the file name by the Fortran code is that of `evalQd`. -/
def evalQdlatlonC (E : Env F K) (bytes : F → Nat) (lat lon rad : NdArray K) (time : NdArray (X K)) (file : F) (base : Bool)
    (m : Mod F K) : Except Failure (List (NdArray K) × Mod F K) :=
  if bytes file > maxName then .error .runtimeError
  else do
    let a ← asVector lat
    let o ← asVector lon
    let r ← asVector rad
    let t ← asVector time
    let dims := lat.arr.dim
    checkDims lon dims
    checkDims rad dims
    checkDims time dims
    let n := pointCount dims
    let a ← firstN n a
    let o ← firstN n o
    let r ← firstN n r
    let t ← firstN n t
    let q ← orStopped (evalQd E file base (readPoints t r a o) m)
    let new := fun (f : Qd K → K) => outArray E.junk dims (q.1.map f)
    return (if base then [new Qd.lat, new Qd.lon, new Qd.f11, new Qd.f12, new Qd.f21, new Qd.f22, new Qd.f]
      else [new Qd.lat, new Qd.lon], q.2)

/-- `eval_qdlatlon`, quasi_dipole_coordinates.py lines 43-61. -/
def evalQdlatlon (E : Env F K) (isFile : F → Bool) (bytes : F → Nat) (lat lon rad : NdArray K) (time : NdArray (X K)) (file : F)
    (m : Mod F K) : Except Failure (List (NdArray K) × Mod F K) :=
  if !isFile file then .error .ioError else evalQdlatlonC E bytes lat lon rad time file false m

/-- `eval_qdlatlon_with_base_vectors`, quasi_dipole_coordinates.py lines 64-87. -/
def evalQdlatlonBase (E : Env F K) (isFile : F → Bool) (bytes : F → Nat) (lat lon rad : NdArray K) (time : NdArray (X K)) (file : F)
    (m : Mod F K) : Except Failure (List (NdArray K) × Mod F K) :=
  if !isFile file then .error .ioError else evalQdlatlonC E bytes lat lon rad time file true m
end

section
variable {K : Type} [Field K] [LinearOrder K] [FloorRing K]

/-- `eval_mlt`, quasi_dipole_coordinates.py lines 90-101, pyqd_eval_mlt.h lines 48-112, `c_eval_mlt`, cqdipole.c lines 71-79. -/
def evalMltArr (E : Mlt.Env K) (junk : Nat → K) (qdlon time : NdArray K) : Except Failure (NdArray K) := do
  let o ← asVector qdlon
  let t ← asVector time
  let dims := qdlon.arr.dim
  checkDims time dims
  let n := pointCount dims
  let o ← firstN n o
  let t ← firstN n t
  let r ← orStopped (Mlt.evalMlt E (o.zip t))
  return outArray junk dims r

/-- `eval_subsol`, quasi_dipole_coordinates.py lines 104-115, pyqd_eval_subsol.h lines 48-111, `c_eval_subsol`, cqdipole.c lines 83-91. -/
def evalSubsolArr (L : Libm K) (junk : Nat → K) (time : NdArray K) : Except Failure (NdArray K × NdArray K) := do
  let t ← asVector time
  let dims := time.arr.dim
  let t ← firstN (pointCount dims) t
  let r ← orStopped (Mlt.evalSubsol L t)
  return (outArray junk dims (r.map Prod.fst), outArray junk dims (r.map Prod.snd))
end

end Verif.QdApi
