/-
Model of the array functions of the C extension: `sheval`, `spharpot`, `sphargrd`,
`convert`, `vrot_sph2geod`, `vrot_sph2cart`, `vrot_cart2sph`.
Source: eoxmagmod/eoxmagmod/pymm_sheval.h, pymm_spharpot.h, pymm_sphargrd.h, pymm_cconv.h,
pymm_vrot_common.h, pymm_vrot_sph2geod.h, pymm_vrot_sph2cart.h, pymm_vrot_cart2sph.h

The arguments are arrays of doubles; the conversion of other Python objects
(`PyArray_FromAny`) is not modelled.  It makes the arrays requested as C contiguous
contiguous.  Memory errors of the allocations are not modelled.  New arrays and work
buffers have an arbitrary content (`junk`, `alloc`).
-/
import Verif.Model.Arrays
import Verif.Model.FullEval

namespace Verif.Arr

open Verif.Buf Verif.Geo Verif.ShPoint Verif.FullEval

/-- Failures: a Python exception, an access outside of the memory of the arrays, a result
returned although an exception is set (the interpreter raises `SystemError`). -/
inductive Err where
  | valueError
  | memory
  | systemError
deriving DecidableEq, Repr

/-- `ValueError` for `none`. -/
def orValueError {A : Type} : Option A → Except Err A
  | some a => .ok a
  | none => .error .valueError

/-- Memory violation for `none`. -/
def orMemory {A : Type} : Option A → Except Err A
  | some a => .ok a
  | none => .error .memory

variable {K : Type} [Field K]

/-- `x[0], x[1], x[2]` of the leaves of `_sheval_*`, pymm_sheval.h lines 416-419. -/
def readPoint (mem : Int → Option K) (a : ArrD) : Option (V3 K) := do
  return ⟨← mem a.data, ← mem (a.data + 1), ← mem (a.data + 2)⟩

/-- Rows of the coefficients given to a leaf; a row beyond the first dimension of the
leaf is not part of it. -/
def readCoef (mem : Int → Option K) (a : ArrD) : Option (List (K × K)) := do
  let n ← a.dim.head?
  readPairs mem a.data n

/-- Evaluation of a leaf: state and outputs. -/
abbrev Eval (St K : Type) := St → V3 K → List (K × K) → Option (St × Out K)

/-- `_sheval_pot`, pymm_sheval.h lines 391-423. -/
def shevalPot {St : Type} (ev : Eval St K) (xm cm : Int → Option K) :
    List Nat → List ArrD → St × List K → Option (St × List K) :=
  walk [none, some 1, some 2] 0 (fun arrs s => match arrs with
    | [pot, x, coef] => do
      let v ← readPoint xm x
      let rows ← readCoef cm coef
      let r ← ev s.1 v rows
      let p ← r.2.1
      let buf ← wrList s.2 pot.data [p]
      return (r.1, buf)
    | _ => none)

/-- `_sheval_grd`, pymm_sheval.h lines 426-458. -/
def shevalGrd {St : Type} (ev : Eval St K) (xm cm : Int → Option K) :
    List Nat → List ArrD → St × List K → Option (St × List K) :=
  walk [none, some 1, some 2] 1 (fun arrs s => match arrs with
    | [grd, x, coef] => do
      let v ← readPoint xm x
      let rows ← readCoef cm coef
      let r ← ev s.1 v rows
      let g ← r.2.2
      let buf ← wrList s.2 grd.data [g.x, g.y, g.z]
      return (r.1, buf)
    | _ => none)

/-- `_sheval_pot_and_grd`, pymm_sheval.h lines 461-497. -/
def shevalBoth {St : Type} (ev : Eval St K) (xm cm : Int → Option K) :
    List Nat → List ArrD → St × List K × List K → Option (St × List K × List K) :=
  walk [none, none, some 1, some 2] 0 (fun arrs s => match arrs with
    | [pot, grd, x, coef] => do
      let v ← readPoint xm x
      let rows ← readCoef cm coef
      let r ← ev s.1 v rows
      let p ← r.2.1
      let g ← r.2.2
      let bp ← wrList s.2.1 pot.data [p]
      let bg ← wrList s.2.2 grd.data [g.x, g.y, g.z]
      return (r.1, bp, bg)
    | _ => none)

/-- Argument `scale_gradient`: not given, a scalar, a 1D array. -/
inductive Scale (K : Type) where
  | default
  | scalar (s : K)
  | vector (l : List K)

/-- `_extract_1d_double_array`, pymm_aux.h lines 273-299 and pymm_sheval.h lines 157,
295-303. -/
def Scale.get : Scale K → Option (V3 K)
  | .default => some ⟨1, 1, 1⟩
  | .scalar s => some ⟨s, s, s⟩
  | .vector [x, y, z] => some ⟨x, y, z⟩
  | .vector _ => none

/-- Results of `sheval`: shape of the points, potential, gradient (flat, three items per
point). -/
structure Result (K : Type) where
  shape : List Nat
  pot : Option (List K)
  grd : Option (List K)

/-- `_check_sheval_mode`, pymm_sheval.h lines 365-379. -/
def checkMode (mode : Int) : Option Nat :=
  if mode = 1 then some 1 else if mode = 2 then some 2 else if mode = 3 then some 3 else none

/-- Number of dimensions required by the conversion to an array, `PyArray_FromAny`. -/
def minNdim (a : ArrD) (n : Nat) : Option Unit := if n ≤ a.dim.length then some () else none

/-- `sheval`, pymm_sheval.h lines 144-362.  `evalP` is the evaluation of one point for the
given configuration, `start` its initial state. -/
def sheval {St : Type} (fl : Nat → Int) (evalP : Config K → Nat → Eval St K) (start : Nat → St)
    (junk : Nat → List K) (x coef : NdArray K) (ctIn ctOut mode : Int) (isInternal : Bool) (degree : Int)
    (sp : K) (sg : Scale K) : Except Err (Result K) := do
  let i ← orValueError (checkCT ctIn)
  let o ← orValueError (checkCT ctOut)
  let m ← orValueError (checkMode mode)
  let _ ← orValueError (minNdim x.arr 1)
  let _ ← orValueError (minNdim coef.arr 2)
  let rows ← orMemory coef.arr.dim[coef.arr.dim.length - 2]?
  let d ← orValueError (selectDegree [sizeToDegree fl rows] degree)
  let shapes := [(x.arr.dim, 1), (coef.arr.dim, 2)]
  let c := commonShape shapes
  let _ ← orValueError (if checkShapes c 0 shapes then some () else none)
  let lead := c.dims.take c.ndim.toNat
  let sg ← orValueError sg.get
  let cfg := config isInternal d.toNat i o sp sg
  let ev := evalP cfg m
  let s0 := start d.toNat
  if m = 1 then
    let r ← orMemory (shevalPot ev x.mem coef.mem lead [contiguous lead, x.arr, coef.arr]
      (s0, junk lead.prod))
    return ⟨lead, some r.2, none⟩
  else if m = 2 then
    let r ← orMemory (shevalGrd ev x.mem coef.mem (lead ++ [3])
      [contiguous (lead ++ [3]), x.arr, coef.arr] (s0, junk (lead ++ [3]).prod))
    return ⟨lead, none, some r.2⟩
  else
    let r ← orMemory (shevalBoth ev x.mem coef.mem lead
      [contiguous lead, contiguous (lead ++ [3]), x.arr, coef.arr]
      (s0, junk lead.prod, junk (lead ++ [3]).prod))
    return ⟨lead, some r.2.1, some r.2.2⟩

/-! ### Coordinate conversion and rotations -/

/-- `V(a, 0), V(a, 1), V(a, 2)`, e.g. pymm_cconv.h lines 129-133. -/
def readV (mem : Int → Option K) (a : ArrD) : Option (V3 K) := do
  let s ← a.stride.head?
  return ⟨← mem (a.data + 0 * s), ← mem (a.data + 1 * s), ← mem (a.data + 2 * s)⟩

/-- Writes to `P(a, 0), P(a, 1), P(a, 2)`. -/
def wrV (buf : List K) (a : ArrD) (v : V3 K) : Option (List K) := do
  let s ← a.stride.head?
  let b ← wrI buf (a.data + 0 * s) v.x
  let b ← wrI b (a.data + 1 * s) v.y
  wrI b (a.data + 2 * s) v.z

/-- `_convert`, pymm_cconv.h lines 119-139. -/
def convertRec (f : V3 K → V3 K) (mem : Int → Option K) :
    List Nat → List ArrD → List K → Option (List K) :=
  walk [some 0, some 0] 1 (fun arrs buf => match arrs with
    | [ain, aout] => do
      let v ← readV mem ain
      wrV buf aout (f v)
    | _ => none)

/-- Result of `convert`: the input itself or a new array. -/
inductive Converted (K : Type) where
  | same
  | fresh (shape : List Nat) (data : List K)

/-- `MAX_OUT_ARRAY_NDIM`, `_check_array_dim_eq`, pymm_aux.h lines 175-185,
pymm_cconv.h lines 171-181. -/
def checkVectors (a : ArrD) : Option Unit :=
  if a.dim.length = 0 then none                       -- conversion to an array, dmin = 1
  else if a.dim.length > 16 then none
  else if a.dim[a.dim.length - 1]? ≠ some 3 then none
  else some ()

/-- `_get_new_double_array`, pymm_aux.h lines 150-168. -/
def newDims (dims : List Nat) : List Nat := dims.take (dims.length - 1) ++ [3]

/-- `convert`, pymm_cconv.h lines 148-205. -/
def convertArr (L : Libm K) (junk : Nat → List K) (a : NdArray K) (ctIn ctOut : Int) :
    Except Err (Converted K) := do
  let i ← orValueError (checkCT ctIn)
  let o ← orValueError (checkCT ctOut)
  let _ ← orValueError (checkVectors a.arr)
  if ctIn = ctOut then return .same
  else
    let dims := newDims a.arr.dim
    let r ← orMemory (convertRec (getFconv L i o) a.mem a.arr.dim [a.arr, contiguous dims]
      (junk dims.prod))
    return .fresh dims r

/-- `_vrot_arr_check`, pymm_vrot_common.h lines 37-66. -/
def vrotCheck (ref checked : ArrD) : Option Unit :=
  if checked.dim.length > 0 then
    if ref.dim.length ≠ checked.dim.length + 1 then none
    else if (List.range (ref.dim.length - 1)).any (fun d => ref.dim[d]? ≠ checked.dim[d]?) then none
    else some ()
  else some ()

/-- `_vrot_sph2geod`, pymm_vrot_sph2geod.h lines 41-69. -/
def vrot1Rec {A : Type} (f : V3 A → K → V3 A) (mem : Int → Option A) (lat : Int → Option K) :
    List Nat → List ArrD → List A → Option (List A) :=
  walk [some 0, some 0, some 0] 1 (fun arrs buf => match arrs with
    | [ain, alat, aout] => do
      let la ← lat alat.data
      let v ← readV mem ain
      wrV buf aout (f v la)
    | _ => none)

/-- `_vrot_sph2cart`, `_vrot_cart2sph`, lines 42-75 of pymm_vrot_sph2cart.h and
pymm_vrot_cart2sph.h. -/
def vrot2Rec {A : Type} (f : V3 A → K → K → V3 A) (mem : Int → Option A) (lat lon : Int → Option K) :
    List Nat → List ArrD → List A → Option (List A) :=
  walk [some 0, some 0, some 0, some 0] 1 (fun arrs buf => match arrs with
    | [ain, alat, alon, aout] => do
      let la ← lat alat.data
      let lo ← lon alon.data
      let v ← readV mem ain
      wrV buf aout (f v la lo)
    | _ => none)

/-- `vrot_sph2geod`, pymm_vrot_sph2geod.h lines 88-145, with the rotation `f`; the items of the vectors are of type `A`
(numbers, or numbers and NaN). -/
def vrot1Arr {A : Type} (f : V3 A → K → V3 A) (junk : Nat → List A) (a : NdArray A) (lat : NdArray K) :
    Except Err (List Nat × List A) := do
  let _ ← orValueError (checkVectors a.arr)
  let _ ← orValueError (vrotCheck a.arr lat.arr)
  let dims := newDims a.arr.dim
  let r ← orMemory (vrot1Rec f a.mem lat.mem a.arr.dim
    [a.arr, lat.arr, contiguous dims] (junk dims.prod))
  return (dims, r)

/-- `vrot_sph2geod`, pymm_vrot_sph2geod.h lines 88-145, for vectors of numbers. -/
def vrotSph2geodArr (L : Libm K) (junk : Nat → List K) (a lat : NdArray K) : Except Err (List Nat × List K) :=
  vrot1Arr (vrotSph2geod L) junk a lat

/-- `vrot_sph2cart` and `vrot_cart2sph`, pymm_vrot_sph2cart.h lines 92-160,
pymm_vrot_cart2sph.h lines 92-160, with the rotation `f`; the items of the vectors are of type `A`. -/
def vrot2Arr {A : Type} (f : V3 A → K → K → V3 A) (junk : Nat → List A) (a : NdArray A) (lat lon : NdArray K) :
    Except Err (List Nat × List A) := do
  let _ ← orValueError (checkVectors a.arr)
  let _ ← orValueError (vrotCheck a.arr lat.arr)
  let _ ← orValueError (vrotCheck a.arr lon.arr)
  let dims := newDims a.arr.dim
  let r ← orMemory (vrot2Rec f a.mem lat.mem lon.mem a.arr.dim
    [a.arr, lat.arr, lon.arr, contiguous dims] (junk dims.prod))
  return (dims, r)

/-! ### Series evaluation -/

/-- `n` consecutive items, `n` being the first dimension of the leaf. -/
def readRow (mem : Int → Option K) (a : ArrD) : Option (List K) := do
  let n ← a.dim.head?
  readN mem a.data n

/-- `_spharpot`, pymm_spharpot.h lines 232-273. -/
def spharpotRec (degree : Nat) (rm cm pm qm lm : Int → Option K) :
    List Nat → List ArrD → List K → Option (List K) :=
  walk [none, some 0, some 2, some 1, some 1, some 2] 0 (fun arrs buf => match arrs with
    | [pot, rad, coef, lp, rrp, lcs] => do
      let r ← rm rad.data
      let c ← readCoef cm coef
      let p ← readRow pm lp
      let q ← readRow qm rrp
      let l ← readCoef lm lcs
      let v ← evalV degree r c l p q
      wrList buf pot.data [v]
    | _ => none)

/-- `spharpot`, pymm_spharpot.h lines 65-226. -/
def spharpot (fl : Nat → Int) (junk : Nat → List K) (rad coef lp rrp lcs : NdArray K) (degree : Int) :
    Except Err (List Nat × List K) := do
  let _ ← orValueError (minNdim coef.arr 2)
  let _ ← orValueError (minNdim lp.arr 1)
  let _ ← orValueError (minNdim rrp.arr 1)
  let _ ← orValueError (minNdim lcs.arr 2)
  let n0 ← orMemory coef.arr.dim[coef.arr.dim.length - 2]?
  let n1 ← orMemory lp.arr.dim[lp.arr.dim.length - 1]?
  let n2 ← orMemory rrp.arr.dim[rrp.arr.dim.length - 1]?
  let n3 ← orMemory lcs.arr.dim[lcs.arr.dim.length - 2]?
  let d ← orValueError (selectDegree
    [sizeToDegree fl n0, sizeToDegree fl n1, (n2 : Int) - 1, (n3 : Int) - 1] degree)
  let shapes := [(rad.arr.dim, 0), (coef.arr.dim, 2), (lp.arr.dim, 1), (rrp.arr.dim, 1), (lcs.arr.dim, 2)]
  let c := commonShape shapes
  let _ ← orValueError (if checkShapes c 0 shapes then some () else none)
  let lead := c.dims.take c.ndim.toNat
  let r ← orMemory (spharpotRec d.toNat rad.mem coef.mem lp.mem rrp.mem lcs.mem lead
    [contiguous lead, rad.arr, coef.arr, lp.arr, rrp.arr, lcs.arr] (junk lead.prod))
  return (lead, r)

/-- `_sphargrd`, pymm_sphargrd.h lines 262-310. -/
def sphargrdRec (L : Libm K) (small : K → Bool) (degree : Nat) (isInternal : Bool)
    (tm cm pm dm qm lm : Int → Option K) : List Nat → List ArrD → List K → Option (List K) :=
  walk [none, some 0, some 2, some 1, some 1, some 1, some 2] 1 (fun arrs buf => match arrs with
    | [grd, lat, coef, lp, ldp, rrp, lcs] => do
      let t ← tm lat.data
      let c ← readCoef cm coef
      let p ← readRow pm lp
      let d ← readRow dm ldp
      let q ← readRow qm rrp
      let l ← readCoef lm lcs
      let g ← evalDv L.sin L.cos L.sqrt small degree (t * dg2rad L) c l p d q isInternal
      wrList buf grd.data [g.el, g.az, g.rd]
    | _ => none)

/-- `sphargrd`, pymm_sphargrd.h lines 69-255. -/
def sphargrd (L : Libm K) (small : K → Bool) (fl : Nat → Int) (junk : Nat → List K)
    (lat coef lp ldp rrp lcs : NdArray K) (isInternal : Bool) (degree : Int) :
    Except Err (List Nat × List K) := do
  let _ ← orValueError (minNdim coef.arr 2)
  let _ ← orValueError (minNdim lp.arr 1)
  let _ ← orValueError (minNdim ldp.arr 1)
  let _ ← orValueError (minNdim rrp.arr 1)
  let _ ← orValueError (minNdim lcs.arr 2)
  let n0 ← orMemory coef.arr.dim[coef.arr.dim.length - 2]?
  let n1 ← orMemory lp.arr.dim[lp.arr.dim.length - 1]?
  let n1' ← orMemory ldp.arr.dim[ldp.arr.dim.length - 1]?
  let n2 ← orMemory rrp.arr.dim[rrp.arr.dim.length - 1]?
  let n3 ← orMemory lcs.arr.dim[lcs.arr.dim.length - 2]?
  let d ← orValueError (selectDegree
    [sizeToDegree fl n0, sizeToDegree fl n1, sizeToDegree fl n1', (n2 : Int) - 1, (n3 : Int) - 1] degree)
  let shapes := [(lat.arr.dim, 0), (coef.arr.dim, 2), (lp.arr.dim, 1), (ldp.arr.dim, 1),
    (rrp.arr.dim, 1), (lcs.arr.dim, 2)]
  let c := commonShape shapes
  let _ ← orValueError (if checkShapes c 0 shapes then some () else none)
  let lead := c.dims.take c.ndim.toNat
  let r ← orMemory (sphargrdRec L small d.toNat isInternal lat.mem coef.mem lp.mem ldp.mem rrp.mem
    lcs.mem (lead ++ [3])
    [contiguous (lead ++ [3]), lat.arr, coef.arr, lp.arr, ldp.arr, rrp.arr, lcs.arr]
    (junk (lead ++ [3]).prod))
  return (lead, r)

end Verif.Arr
