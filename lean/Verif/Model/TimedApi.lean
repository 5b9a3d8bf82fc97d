/-
Model of the evaluation of time dependent models on arrays: `shevaltemp`, `sheval2dfs`.
Source: eoxmagmod/eoxmagmod/pymm_shevaltemp.h, pymm_sheval2dfs.h

The arrays of times and positions are strided arrays of finite doubles (NaN times are
treated with parameters as kernels in Model/ShEval.lean); the items of the coefficient
sets are arrays after their conversion (`PyArray_FromAny`, C contiguous) and are given as
lists of rows.
-/
import Verif.Model.ArrayApi
import Verif.Model.ShEval
import Verif.Model.Fourier

namespace Verif.Arr

open Verif.Buf Verif.Geo Verif.ShPoint Verif.FullEval Verif.Coeffs Verif.ShEval Verif.Fourier

variable {K : Type}

/-- The memory of `model->coef`, an array of pairs. -/
def tabMem (rows : List (K × K)) (p : Int) : Option K :=
  if p < 0 then none
  else (rows[p.toNat / 2]?).map (fun r => if p.toNat % 2 = 0 then r.1 else r.2)

/-- `arrd_coef` of the leaves, e.g. pymm_shevaltemp.h lines 502-505.  The code sets `ndim`
to 0; the two dimensions here are those of the allocated memory (the recursion of
`_sheval_*` leaves arrays of up to two dimensions as they are). -/
def tabArr (n : Nat) : ArrD := ⟨0, [n, 2], [2, 1]⟩

section
variable [Field K]

/-- `_shevaltemp_pot`, pymm_shevaltemp.h lines 479-512, and `_sheval2dfs_pot`,
pymm_sheval2dfs.h lines 373-409.  `upd` is the update of the coefficients for the times of
the leaf, called in any case; it leaves them for unchanged times. -/
def timedPot {C St : Type} (upd : C → List K → Option (C × List (K × K))) (ev : Eval St K)
    (xm : Int → Option K) (tms : List (Int → Option K)) :
    List Nat → List ArrD → C × St × List K → Option (C × St × List K) :=
  walk (some 0 :: some 1 :: tms.map (fun _ => some 0)) 0 (fun arrs s => match arrs with
    | pot :: x :: ts => do
      let times ← (ts.zip tms).mapM (fun p => p.2 p.1.data)
      let c ← upd s.1 times
      let r ← shevalPot ev xm (tabMem c.2) pot.dim [pot, x, tabArr c.2.length] s.2
      return (c.1, r)
    | _ => none)

/-- `_shevaltemp_grd`, pymm_shevaltemp.h lines 514-547, and `_sheval2dfs_grd`,
pymm_sheval2dfs.h lines 411-447. -/
def timedGrd {C St : Type} (upd : C → List K → Option (C × List (K × K))) (ev : Eval St K)
    (xm : Int → Option K) (tms : List (Int → Option K)) :
    List Nat → List ArrD → C × St × List K → Option (C × St × List K) :=
  walk (some 0 :: some 1 :: tms.map (fun _ => some 0)) 0 (fun arrs s => match arrs with
    | grd :: x :: ts => do
      let times ← (ts.zip tms).mapM (fun p => p.2 p.1.data)
      let c ← upd s.1 times
      let r ← shevalGrd ev xm (tabMem c.2) grd.dim [grd, x, tabArr c.2.length] s.2
      return (c.1, r)
    | _ => none)

/-- `_shevaltemp_pot_and_grd`, pymm_shevaltemp.h lines 550-585, and
`_sheval2dfs_pot_and_grd`, pymm_sheval2dfs.h lines 449-487. -/
def timedBoth {C St : Type} (upd : C → List K → Option (C × List (K × K))) (ev : Eval St K)
    (xm : Int → Option K) (tms : List (Int → Option K)) :
    List Nat → List ArrD → C × St × List K × List K → Option (C × St × List K × List K) :=
  walk (some 0 :: some 0 :: some 1 :: tms.map (fun _ => some 0)) 0 (fun arrs s => match arrs with
    | pot :: grd :: x :: ts => do
      let times ← (ts.zip tms).mapM (fun p => p.2 p.1.data)
      let c ← upd s.1 times
      let r ← shevalBoth ev xm (tabMem c.2) pot.dim [pot, grd, x, tabArr c.2.length] s.2
      return (c.1, r)
    | _ => none)

/-- The evaluation part, pymm_shevaltemp.h lines 307-348, pymm_sheval2dfs.h lines 301-346:
`driver` are the dimensions the recursion goes through, `lead` those of the output. -/
def runTimed {C St : Type} (upd : C → List K → Option (C × List (K × K))) (ev : Eval St K)
    (junk : Nat → List K) (mode : Nat) (driver lead : List Nat) (ts : List (NdArray K)) (x : NdArray K)
    (c0 : C) (s0 : St) : Option (Result K) :=
  let tms := ts.map NdArray.mem
  let tas := ts.map NdArray.arr
  if mode = 1 then do
    let r ← timedPot upd ev x.mem tms driver (contiguous lead :: x.arr :: tas)
      (c0, s0, junk lead.prod)
    return ⟨lead, some r.2.2, none⟩
  else if mode = 2 then do
    let r ← timedGrd upd ev x.mem tms driver (contiguous (lead ++ [3]) :: x.arr :: tas)
      (c0, s0, junk (lead ++ [3]).prod)
    return ⟨lead, none, some r.2.2⟩
  else do
    let r ← timedBoth upd ev x.mem tms driver
      (contiguous lead :: contiguous (lead ++ [3]) :: x.arr :: tas)
      (c0, s0, junk lead.prod, junk (lead ++ [3]).prod)
    return ⟨lead, some r.2.2.1, some r.2.2.2⟩

/-- `_check_array_dim_eq(arr_x, -1, 3)`, pymm_aux.h lines 175-185. -/
def lastIs3 (a : ArrD) : Option Unit :=
  if a.dim[a.dim.length - 1]? ≠ some 3 then none else some ()

/-- The comparison of the first dimensions, pymm_shevaltemp.h lines 266-276,
pymm_sheval2dfs.h lines 210-240. -/
def samePrefix (a b : List Nat) (n : Nat) : Option Unit :=
  if compareDims a b n then none else some ()
end

/-! ### Interpolated coefficients -/

/-- One item of `coef_set_list`: the tuple of the nodes, the rows of the values, degrees and
orders, and the spline order (nodes and values can be infinite or NaN: coefficients without time
dependence have the node minus infinity). -/
structure RawSet (K : Type) where
  ct : List (X K)
  cv : List (List (X K))
  cm : List (Int × Int)
  order : Int

section
variable [Field K] [LinearOrder K]

/-- `parse_coefset`, pymm_shevaltemp.h lines 371-459. -/
def RawSet.parse (r : RawSet K) : Option (CoefSet K) :=
  parseCoefset r.ct r.cv r.cm r.order

/-- The part of `MODEL_TS` with the coefficients, pymm_shevaltemp.h lines 94-100. -/
structure TempCoef (K : Type) where
  coef : Tab (X K)
  timeLast : X K
  idxLast : List Int

/-- Finite content of the table (`none` if there is another value; finite nodes and values
do not give any, see the theorems). -/
def finRows (t : Tab (X K)) : Option (List (K × K)) :=
  t.mapM (fun r => match r with
    | (.fin a, .fin b) => some (a, b)
    | _ => none)

/-- `if (time != model->time_last) _coeff_interp(time, model);`, pymm_shevaltemp.h lines
507-508 and 464-474. -/
def tempUpd (sets : List (CoefSet K)) (c : TempCoef K) : List K → Option (TempCoef K × List (K × K))
  | [t] => do
    let c ← if !(X.eq (.fin t) c.timeLast) then do
        let r ← coeffInterp (.fin t) sets c.idxLast c.coef
        pure ⟨r.1, .fin t, r.2⟩
      else pure c
    let rows ← finRows c.coef
    return (c, rows)
  | _ => none

/-- `_model_ts_init`, pymm_shevaltemp.h lines 609-641, and `idx_last` from line 686. -/
def tempInit (sets : List (CoefSet K)) : TempCoef K :=
  ⟨zeros (X K) (setsDegree sets), .nan, sets.map (fun _ => -1)⟩

/-- `shevaltemp`, pymm_shevaltemp.h lines 167-368; the item by item evaluation `evalP` and
its first state `start` as for `sheval`. -/
def shevaltempArr {St : Type} (evalP : Config K → Nat → Eval St K) (start : Nat → St)
    (junk : Nat → List K) (t x : NdArray K) (raw : List (RawSet K)) (ctIn ctOut mode : Int)
    (isInternal : Bool) (sp : K) (sg : Scale K) : Except Err (Result K) := do
  let i ← orValueError (checkCT ctIn)
  let o ← orValueError (checkCT ctOut)
  let m ← orValueError (checkMode mode)
  let _ ← orValueError (if raw.length < 1 then none else some ())
  let _ ← orValueError (if raw.length > 16 then none else some ())
  let sets ← orValueError (raw.mapM RawSet.parse)
  let degree := setsDegree sets
  let _ ← orValueError (minNdim x.arr 1)
  let _ ← orValueError (if degree < 0 then none else some ())
  let _ ← orValueError (lastIs3 x.arr)
  let _ ← orValueError (samePrefix t.arr.dim x.arr.dim (min t.arr.dim.length (x.arr.dim.length - 1)))
  let sg ← orValueError sg.get
  let ndim := max t.arr.dim.length (x.arr.dim.length - 1)
  let lead := (if t.arr.dim.length ≥ x.arr.dim.length - 1 then t.arr.dim else x.arr.dim).take ndim
  let cfg := config isInternal degree.toNat i o sp sg
  orMemory (runTimed (tempUpd sets) (evalP cfg m) junk m t.arr.dim lead [t] x (tempInit sets)
    (start degree.toNat))
end

/-! ### Coefficients by 2D Fourier series -/

/-- The tuple `coef_set`: the matrices (`size1 * size2` pairs each, in C order), degrees and
orders, minimal degrees, scales. -/
structure RawFourier (K : Type) where
  ab : List (List (K × K))
  size1 : Nat
  size2 : Nat
  cm : List (Int × Int)
  min1 : Int
  min2 : Int
  scale1 : K
  scale2 : K

/-- `FOURIER_2D_COEF_SET`, pymm_sheval2dfs.h lines 40-49. -/
structure FourierSet (K : Type) where
  ab : List (List (K × K))
  cm : List (Int × Int)
  degree : Int
  f2d : F2D K

section
variable [Field K]

/-- The structure before it is filled: zeros and null pointers, pymm_sheval2dfs.h line 176. -/
def zeroSet : FourierSet K := ⟨[], [], 0, ⟨0, 0, 0, 0, 0, 0, [], [], [], []⟩⟩

/-- `_f2d_coefset_parse` with `_f2d_coefset_init`, pymm_sheval2dfs.h lines 604-757, for
arrays with the dimensions 4 and 2, the last ones being 2. -/
def RawFourier.parse (junk2 : Nat → K × K) (r : RawFourier K) : Option (FourierSet K) :=
  if r.ab.length ≠ r.cm.length then none
  else some ⟨r.ab, r.cm, r.cm.foldl (fun d e => max d e.1) 0,
    f2dInit junk2 r.min1 r.size1 r.min2 r.size2 r.scale1 r.scale2⟩

/-- The part of `MODEL_2DFS` with the coefficients, pymm_sheval2dfs.h lines 70-76; `none` is
the NaN of the start. -/
structure FourierCoef (K : Type) where
  coef : List (K × K)
  last1 : Option K
  last2 : Option K
  f2d : F2D K

/-- `_sheval2dfs_eval_coeff`, pymm_sheval2dfs.h lines 489-520. -/
def fourierTable (cos sin : K → K) (ab : List (List (K × K))) (cm : List (Int × Int)) (t1 t2 : K)
    (coef : List (K × K)) (f2d : F2D K) : Option (List (K × K) × F2D K) := do
  let f ← f2dCosSin cos sin f2d t1 t2
  let coef ← (cm.zip ab).foldlM (fun t e => do
    let v ← f2dEval f e.2
    let o := offsetOf e.1.1 e.1.2
    setItem t |o| (decide (o < 0)) v) coef
  return (coef, f)

/-- `if ((time1 != model->time1_last)||(time2 != model->time2_last))
_sheval2dfs_eval_coeff(...)`, pymm_sheval2dfs.h lines 404-405. -/
def fourierUpd [DecidableEq K] (cos sin : K → K) (ab : List (List (K × K))) (cm : List (Int × Int))
    (c : FourierCoef K) : List K → Option (FourierCoef K × List (K × K))
  | [t1, t2] => do
    let c ← if some t1 ≠ c.last1 ∨ some t2 ≠ c.last2 then do
        let r ← fourierTable cos sin ab cm t1 t2 c.coef c.f2d
        pure ⟨r.1, some t1, some t2, r.2⟩
      else pure c
    return (c, c.coef)
  | _ => none

/-- `sheval2dfs`, pymm_sheval2dfs.h lines 150-362.  The return value of
`_f2d_coefset_parse` is ignored (line 247): for a refused set the zeroed structure is used,
with an exception set. -/
def sheval2dfsArr [DecidableEq K] {St : Type} (cos sin : K → K) (evalP : Config K → Nat → Eval St K)
    (start : Nat → St) (junk : Nat → List K) (junk2 : Nat → K × K) (t1 t2 x : NdArray K)
    (raw : RawFourier K) (ctIn ctOut mode : Int) (isInternal : Bool) (sp : K) (sg : Scale K) :
    Except Err (Result K) := do
  let i ← orValueError (checkCT ctIn)
  let o ← orValueError (checkCT ctOut)
  let m ← orValueError (checkMode mode)
  let _ ← orValueError (minNdim x.arr 1)
  let _ ← orValueError (samePrefix t1.arr.dim t2.arr.dim (min t1.arr.dim.length t2.arr.dim.length))
  let _ ← orValueError (samePrefix t1.arr.dim x.arr.dim (min t1.arr.dim.length (x.arr.dim.length - 1)))
  let _ ← orValueError (samePrefix t2.arr.dim x.arr.dim (min t2.arr.dim.length (x.arr.dim.length - 1)))
  let _ ← orValueError (lastIs3 x.arr)
  let parsed := raw.parse junk2
  let set := parsed.getD zeroSet
  let _ ← orValueError (if set.degree < 0 then none else some ())
  let sg ← orValueError sg.get
  let ndim := max (max (max 0 t1.arr.dim.length) t2.arr.dim.length) (x.arr.dim.length - 1)
  let lead := (if t1.arr.dim.length = ndim then t1.arr.dim
    else if t2.arr.dim.length = ndim then t2.arr.dim else x.arr.dim).take ndim
  let driver := t1.arr.dim ++ t2.arr.dim.drop t1.arr.dim.length
  let cfg := config isInternal set.degree.toNat i o sp sg
  let r ← orMemory (runTimed (fourierUpd cos sin set.ab set.cm) (evalP cfg m) junk m driver lead [t1, t2] x
    ⟨zeros K set.degree, none, none, set.f2d⟩ (start set.degree.toNat))
  if parsed.isNone then .error .systemError else return r
end

end Verif.Arr
