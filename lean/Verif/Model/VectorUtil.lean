/-
Model of the utilities for vectors on arrays.
Source: eoxmagmod/eoxmagmod/util.py

The items are finite.  The conversion of the arguments to arrays of doubles is not modelled.
-/
import Verif.Model.MioField

namespace Verif.VectorUtil

open Verif.Buf Verif.Geo Verif.Arr Verif.Coeffs Verif.ModelEval Verif.Field Verif.MioField

variable {K : Type}

/-! ### Operations of NumPy -/

/-- A list filled from the left to `n` items. -/
def padTo {A : Type} (n : Nat) (x : A) (l : List A) : List A := List.replicate (n - l.length) x ++ l

/-- The common dimension. -/
def bcastDim (x y : Nat) : Option Nat :=
  if x = y then some x else if x = 1 then some y else if y = 1 then some x else none

/-- The dimensions of the result of an operation item by item. -/
def bcastDims (a b : List Nat) : Option (List Nat) :=
  let n := max a.length b.length
  (List.zip (padTo n 1 a) (padTo n 1 b)).mapM (fun p => bcastDim p.1 p.2)

/-- An array seen with more dimensions: the stride is 0 where the array has one item only. -/
def bcastView {A : Type} (dims : List Nat) (a : NdArray A) : NdArray A :=
  ⟨a.mem, ⟨a.arr.data, dims, List.zipWith (fun d s => if d = 1 then 0 else s) (padTo dims.length 1 a.arr.dim)
    (padTo dims.length 0 a.arr.stride)⟩⟩

/-- An operation item by item with broadcasting; `ValueError` for dimensions which do not match. -/
def bcastNd {A B C : Type} (f : A → B → C) (a : NdArray A) (b : NdArray B) : Except Err (NdArray C) := do
  let dims ← orValueError (bcastDims a.arr.dim b.arr.dim)
  let xs ← itemsNd (bcastView dims a)
  let ys ← itemsNd (bcastView dims b)
  return newArray dims (List.zipWith f xs ys)

/-- `a[..., k]`, `IndexError` if there is no such item. -/
def lastItem (a : NdArray K) (k : Nat) : Except Failure (NdArray K) :=
  match a.arr.dim.getLast? with
  | none => .error (.shape .indexError)
  | some n => if k < n then .ok (lastIndex a k) else .error (.shape .indexError)

/-- `coord[..., k]` where `coord` may be `None` (`TypeError`), util.py lines 60-61. -/
def coordItem (c : Option (NdArray K)) (k : Nat) : Except Failure (NdArray K) :=
  match c with
  | none => .error (.shape .typeError)
  | some c => lastItem c k

/-- `.sum(axis=ndim-1)` of the squares; the square itself for an array without dimensions (`axis=-1` is accepted). -/
def squares [Field K] (a : NdArray K) : Except Err (NdArray K) := do
  let xs ← itemsNd a
  match a.arr.dim.getLast? with
  | none => return newArray [] (xs.map (fun x => x * x))
  | some n => return newArray a.arr.dim.dropLast ((rowsOf a.arr.dim.dropLast.prod n xs).map (fun r => (r.map (fun x => x * x)).sum))

/-! ### Functions -/

section
variable [Field K] [LinearOrder K]

/-- A new array returned by a function in C. -/
def freshNd (r : Except Err (List Nat × List K)) : Except Failure (NdArray K) :=
  called (r.map (fun p => newArray p.1 p.2))

/-- `vrot_sph2geod(arr, coord_out[..., 0] - coord_in[..., 0])`, util.py lines 67 and 73. -/
def rotateLat (L : Libm K) (junk : Nat → List K) (arr : NdArray K) (coordIn coordOut : Option (NdArray K)) :
    Except Failure (NdArray K) := do
  let o ← coordItem coordOut 0
  let i ← coordItem coordIn 0
  let dlat ← called (bcastNd (fun a b => a - b) o i)
  freshNd (vrotSph2geodArr L junk arr dlat)

/-- `vrot_...(arr, coord[..., 0], coord[..., 1])`, util.py lines 69, 75 and 79, with the rotation `f`. -/
def rotateLatLon (f : V3 K → K → K → V3 K) (junk : Nat → List K) (arr : NdArray K) (coord : Option (NdArray K)) :
    Except Failure (NdArray K) := do
  let la ← coordItem coord 0
  let lo ← coordItem coord 1
  freshNd (vrot2Arr f junk arr la lo)

/-- `vrotate`, util.py lines 45-81.  The types are integers; equal types of whatever value return the array itself. -/
def vrotateNd (L : Libm K) (junk : Nat → List K) (arr : NdArray K) (coordIn coordOut : Option (NdArray K))
    (ctIn ctOut : Int) : Except Failure (NdArray K) :=
  if ctIn = ctOut then .ok arr
  else if ctIn = 0 then
    if ctOut = 0 then .ok arr
    else if ctOut = 1 then rotateLat L junk arr coordIn coordOut
    else if ctOut = 2 then rotateLatLon (vrotSph2cart L) junk arr coordIn
    else .error (.shape .valueError)
  else if ctIn = 1 then
    if ctOut = 0 then rotateLat L junk arr coordIn coordOut
    else if ctOut = 2 then rotateLatLon (vrotSph2cart L) junk arr coordIn
    else .error (.shape .valueError)
  else if ctIn = 2 then
    if ctOut = 0 ∨ ctOut = 1 then rotateLatLon (vrotCart2sph L) junk arr coordOut
    else .error (.shape .valueError)
  else .error (.shape .valueError)

/-- `vnorm`, util.py lines 84-89. -/
def vnormNd (L : Libm K) (arr : NdArray K) : Except Err (NdArray K) := do
  let s ← squares arr
  mapNd L.sqrt s

/-- `vincdecnorm`, util.py lines 92-104: inclination, declination, norm. -/
def vincdecnormNd (L : Libm K) (junk : Nat → List K) (arr : NdArray K) :
    Except Failure (NdArray K × NdArray K × NdArray K) := do
  let tmp ← called (convertNd L junk arr 2 1)
  let a ← lastItem tmp 0
  let inc ← called (mapNd (fun x => -x) a)
  let dec ← lastItem tmp 1
  let norm ← lastItem tmp 2
  return (inc, dec, norm)

end

end Verif.VectorUtil
