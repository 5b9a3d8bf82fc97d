/-
Model of the array functions applied item by item: conversions of times, interval search,
interpolation, 2D Fourier series, position of the Sun.
Source: eoxmagmod/eoxmagmod/pytimeconv_decimal_year_to_mjd2000.h,
pytimeconv_mjd2000_to_decimal_year.h, pytimeconv_mjd2000_to_year_fraction.h, pymm_bisect.h,
pymm_interp.h, pymm_fourier2d.h, pysunpos.h, pysunpos_original.h

As in `ArrayApi` the arguments are arrays of doubles, those requested as C contiguous are
contiguous, and new arrays have an arbitrary content (`junk`).
-/
import Verif.Model.SeriesApi
import Verif.Model.Interp
import Verif.Model.Sun

namespace Verif.Arr

open Verif.Buf Verif.Geo

/-- `MAX_OUT_ARRAY_NDIM - 1`, common.h line 45. -/
def maxNdim : Nat := 15

/-- `_decimal_year_to_mjd2k`, `_mjd2k_to_decimal_year`, `_mjd2k_to_year_fract` (guard 0) and
`_bisect_left`, `_bisect_right` (no guard): `f` is applied to each item. -/
def mapRec {A B : Type} (g : Option Nat) (f : A → Option B) (mem : Int → Option A) :
    List Nat → List ArrD → List B → Option (List B) :=
  walk [g, g] 0 (fun arrs buf => match arrs with
    | [x, out] => do
      let v ← mem x.data
      let r ← f v
      wrI buf out.data r
    | _ => none)

/-- The Python functions of pytimeconv_*.h, lines 67-121 (year fraction), which differ in the
function `f` only. -/
def timeArr {A : Type} (f : A → A) (junk : Nat → List A) (x : NdArray A) : Except Err (NdArray A) :=
  if x.arr.dim.length > maxNdim then .error .valueError
  else do
    let r ← orMemory (mapRec (some 0) (fun v => some (f v)) x.mem x.arr.dim [x.arr, contiguous x.arr.dim]
      (junk x.arr.dim.prod))
    return newArray x.arr.dim r

section
variable {K : Type} [Field K] [LinearOrder K] [FloorRing K]

/-- `decimal_year_to_mjd2000` -/
def decimalYearToMjd2000Arr (junk : Nat → List (X K)) (x : NdArray (X K)) : Except Err (NdArray (X K)) :=
  timeArr Time.decimalYearToMjd2kX junk x

/-- `mjd2000_to_decimal_year`; `j` is the value of the conversion of a double outside of the
range of `int`. -/
def mjd2000ToDecimalYearArr (j : Int) (junk : Nat → List (X K)) (x : NdArray (X K)) :
    Except Err (NdArray (X K)) :=
  timeArr (Time.mjd2kToDecimalYearX j) junk x

/-- `mjd2000_to_year_fraction` -/
def mjd2000ToYearFractionArr (j : Int) (junk : Nat → List (X K)) (x : NdArray (X K)) :
    Except Err (NdArray (X K)) :=
  timeArr (Time.mjd2kToYearFractionX j) junk x
end

/-- `side`, pymm_bisect.h lines 36-37 and 77-81. -/
def checkSide (side : Int) : Option Bisect.Side :=
  if side = 0 then some .left else if side = 1 then some .right else none

/-- The request of an array of exactly one dimension (`PyArray_FromAny`). -/
def oneDim (a : ArrD) : Option Nat :=
  match a.dim with
  | [n] => some n
  | _ => none

/-- `bisect`, pymm_bisect.h lines 59-179; the nodes are numbers. -/
def bisectArr {α : Type} [LinearOrder α] (junk : Nat → List Int) (v : NdArray α) (x : NdArray (Option α))
    (side : Int) : Except Err (NdArray Int) := do
  let s ← orValueError (checkSide side)
  let n ← orValueError (oneDim v.arr)
  let nodes ← orMemory (readN v.mem v.arr.data n)
  let f : Option α → Option Int := match s with
    | .right => fun q => Bisect.bisectRight q nodes
    | .left => fun q => Bisect.bisectLeft q nodes
  let r ← orMemory (mapRec none f x.mem x.arr.dim [x.arr, contiguous x.arr.dim] (junk x.arr.dim.prod))
  return newArray x.arr.dim r

section interp
open Verif.Interp
variable {K : Type} [Field K] [LinearOrder K]

/-- `kind`, pymm_interp.h lines 37-39 and 105-124. -/
def checkKind (kind : Int) : Option Kind :=
  if kind = 0 then some .c0 else if kind = 1 then some .c1 else if kind = 17 then some .c1d1 else none

/-- `_interp_eval`, pymm_interp.h lines 254-279; a leaf of the coefficients is the series of
its last dimension. -/
def interpEvalRec (kind : Kind) (basis : Basis K) (cm : Int → Option (X K)) :
    List Nat → List ArrD → List (X K) → Option (List (X K)) :=
  walk [none, none] 0 (fun arrs buf => match arrs with
    | [c, c0] => do
      let series ← readN cm c0.data c0.dim.prod
      let r ← evalBasis kind basis series
      wrI buf c.data r
    | _ => none)

/-- `_fill_value`, pymm_interp.h lines 282-296. -/
def fillValueRec {A : Type} (value : A) : List Nat → List ArrD → List A → Option (List A) :=
  walk [none] 0 (fun arrs buf => match arrs with
    | [c] => wrI buf c.data value
    | _ => none)

/-- The leaf of `_interp`, pymm_interp.h lines 235-249. -/
def interpLeaf (kind : Kind) (extrapolate : Bool) (nodes : List (X K)) (cm : Int → Option (X K)) (c0 : ArrD)
    (t : X K) (c : ArrD) (buf : List (X K)) : Option (List (X K)) := do
  let basis ← getBasis kind t nodes
  let last ← Bisect.rd nodes ((nodes.length : Int) - 1)
  if extrapolate || basis.i0 == basis.i || X.eq t last then
    interpEvalRec kind basis cm c.dim [c, c0] buf
  else
    fillValueRec .nan c.dim [c] buf

/-- `_interp`, pymm_interp.h lines 208-251. -/
def interpRec (kind : Kind) (extrapolate : Bool) (nodes : List (X K)) (tm cm : Int → Option (X K)) (c0 : ArrD) :
    List Nat → List ArrD → List (X K) → Option (List (X K)) :=
  walk [none, none] 0 (fun arrs buf => match arrs with
    | [t, c] => do
      let v ← tm t.data
      interpLeaf kind extrapolate nodes cm c0 v c buf
    | _ => none)

/-- The checks of the sizes, pymm_interp.h lines 137-145. -/
def checkNodes (kind : Kind) (nt : Nat) (c0 : ArrD) : Option Unit :=
  if c0.dim.getLast? ≠ some nt then none
  else if nt < minNodes kind then none
  else some ()

/-- `interp`, pymm_interp.h lines 71-198. -/
def interpArr (junk : Nat → List (X K)) (t t0 c0 : NdArray (X K)) (kind : Int) (extrapolate : Bool) :
    Except Err (NdArray (X K)) := do
  let k ← orValueError (checkKind kind)
  let nt ← orValueError (oneDim t0.arr)
  let _ ← orValueError (minNdim c0.arr 1)
  let _ ← orValueError (checkNodes k nt c0.arr)
  let dims := t.arr.dim ++ c0.arr.dim.take (c0.arr.dim.length - 1)
  let nodes ← orMemory (readN t0.mem t0.arr.data nt)
  let r ← orMemory (interpRec k extrapolate nodes t.mem c0.mem c0.arr t.arr.dim [t.arr, contiguous dims]
    (junk dims.prod))
  return newArray dims r
end interp

section fourier
open Verif.Fourier
variable {K : Type} [Field K]

/-- `_fourier2d_eval_coeff_single_time`, pymm_fourier2d.h lines 274-301; a leaf of the
coefficients is the matrix of pairs of its last three dimensions. -/
def fourierEvalRec (f : F2D K) (cm : Int → Option K) : List Nat → List ArrD → List K → Option (List K) :=
  walk [none, none] 0 (fun arrs buf => match arrs with
    | [c, c0] => do
      let ab ← readPairs cm c0.data (c0.dim.take 2).prod
      let r ← f2dEval f ab
      wrI buf c.data r
    | _ => none)

/-- `_fourier2d_eval_coeff`, pymm_fourier2d.h lines 236-271. -/
def fourierRec (cos sin : K → K) (m1 m2 cm : Int → Option K) (c0 : ArrD) :
    List Nat → List ArrD → F2D K × List K → Option (F2D K × List K) :=
  walk [none, none, none] 0 (fun arrs s => match arrs with
    | [t1, t2, c] => do
      let v1 ← m1 t1.data
      let v2 ← m2 t2.data
      let f ← f2dCosSin cos sin s.1 v1 v2
      let buf ← fourierEvalRec f cm c.dim [c, c0] s.2
      return (f, buf)
    | _ => none)

/-- The checks of the shapes, pymm_fourier2d.h lines 143-166. -/
def checkFourier (t1 t2 c0 : ArrD) : Option Unit :=
  if t1.dim.length ≠ t2.dim.length then none
  else if (List.range t1.dim.length).any (fun i => t1.dim[i]? ≠ t2.dim[i]?) then none
  else if c0.dim[c0.dim.length - 1]? ≠ some 2 then none
  else some ()

/-- `fourier2d`, pymm_fourier2d.h lines 104-219. -/
def fourier2dArr (cos sin : K → K) (junk : Nat → List K) (junk2 : Nat → K × K) (t1 t2 c0 : NdArray K)
    (min1 min2 : Int) (scale1 scale2 : K) : Except Err (NdArray K) := do
  let _ ← orValueError (minNdim c0.arr 3)
  let _ ← orValueError (checkFourier t1.arr t2.arr c0.arr)
  let dims := t1.arr.dim ++ c0.arr.dim.take (c0.arr.dim.length - 3)
  let size1 ← orMemory c0.arr.dim[c0.arr.dim.length - 3]?
  let size2 ← orMemory c0.arr.dim[c0.arr.dim.length - 2]?
  let f := f2dInit junk2 min1 size1 min2 size2 scale1 scale2
  let r ← orMemory (fourierRec cos sin t1.mem t2.mem c0.mem c0.arr t1.arr.dim
    [t1.arr, t2.arr, contiguous dims] (f, junk dims.prod))
  return newArray dims r.2
end fourier

section sun
variable {K : Type}

/-- Writes to `V(a, 0)`, `V(a, 1)`, ..., from the number `k` on. -/
def wrStride (buf : List K) (data s : Int) : Nat → List K → Option (List K)
  | _, [] => some buf
  | k, v :: vs => do
    let b ← wrI buf (data + k * s) v
    wrStride b data s (k + 1) vs

/-- `_sunpos` and `_sunpos_original`, pysunpos.h lines 48-98, pysunpos_original.h lines 49-111:
the output is the first array here.  `V(a, 0)` of an input multiplies 0 by the stride behind
those of the array; that read is not modelled. -/
def pointsRec (f : List K → Option (List K)) (mems : List (Int → Option K)) :
    List Nat → List ArrD → List K → Option (List K) :=
  walk (List.replicate (mems.length + 1) (some 0)) 0 (fun arrs buf => match arrs with
    | out :: ins => do
      let vs ← (ins.zip mems).mapM (fun p => p.2 p.1.data)
      let r ← f vs
      let s ← out.stride.head?
      wrStride buf out.data s 0 r
    | [] => none)

/-- The array with the most dimensions, pysunpos.h lines 167-173. -/
def widest : List (List Nat) → List Nat
  | [] => []
  | d :: l => l.foldl (fun a b => if a.length < b.length then b else a) d

/-- `_check_equal_shape`, pymm_aux.h lines 240-266; `true` if the shapes are equal. -/
def equalShape (d0 d1 : List Nat) : Bool :=
  if d0.length ≠ d1.length then false
  else (List.range d0.length).all (fun i => d0[i]? = d1[i]?)

/-- The checks of pysunpos.h lines 175-206 and of pysunpos_original.h. -/
def checkPoints (dims : List (List Nat)) : Option (List Nat) :=
  let w := widest dims
  if w.length > maxNdim then none
  else if dims.all (fun d => d.length = 0 || equalShape d w) then some w
  else none

/-- `pysunpos_sunpos` and `pysunpos_sunpos_original` for the function `f` of one point with
five outputs, pysunpos.h lines 119-243. -/
def pointsArr (f : List K → Option (List K)) (junk : Nat → List K) (ins : List (NdArray K)) :
    Except Err (NdArray K) := do
  let dims ← orValueError (checkPoints (ins.map (fun a => a.arr.dim)))
  let out := dims ++ [5]
  let r ← orMemory (pointsRec f (ins.map (fun a => a.mem)) dims (contiguous out :: ins.map (fun a => a.arr))
    (junk out.prod))
  return newArray out r

variable [Field K] [LinearOrder K] [FloorRing K]

/-- The order of the outputs, pysunpos.h lines 90-94. -/
def sunItems (s : Sun.SunPos K) : List K := [s.decl, s.rasc, s.hang, s.azimuth, s.zenith]

/-- `sunpos`, pysunpos.h. -/
def sunposArr (L : Libm K) (tan : K → K) (junk : Nat → List K) (mjd lat lon rad dtt : NdArray K) :
    Except Err (NdArray K) :=
  pointsArr (fun vs => match vs with
    | [m, la, lo, r, d] => some (sunItems (Sun.sunpos L tan m la lo r d))
    | _ => none) junk [mjd, lat, lon, rad, dtt]

/-- `sunpos_original`, pysunpos_original.h. -/
def sunposOriginalArr (L : Libm K) (tan : K → K) (junk : Nat → List K)
    (mjd lat lon rad dtt pres temp : NdArray K) : Except Err (NdArray K) :=
  pointsArr (fun vs => match vs with
    | [m, la, lo, r, d, p, t] => some (sunItems (Sun.sunposOriginal L tan m la lo r d p t))
    | _ => none) junk [mjd, lat, lon, rad, dtt, pres, temp]
end sun

end Verif.Arr
