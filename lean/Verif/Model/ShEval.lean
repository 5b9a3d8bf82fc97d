/-
Model of the batch evaluation with its caches.
Source: eoxmagmod/eoxmagmod/pymm_sheval.h, pymm_shevaltemp.h, pymm_sheval2dfs.h

The numerical functions are parameters (`Kernel`); they are modelled in
Model/Legendre.lean, Model/Fourier.lean, Model/ShEvalPoint.lean.  What is modelled here
is when they are called and what is kept from one point to the next.
-/
import Verif.Model.Coefficients

namespace Verif.ShEval

open Verif.Interp Verif.Coeffs

/-- The numerical functions called by `_model_eval`: coordinates of the input point `I`
(pymm_sheval.h lines 517-537), Legendre functions `P`, longitude series `Q`, radial
powers `R`, and the final evaluation with the coefficients `C` (lines 557-596). -/
structure Kernel (K I P Q R C O : Type) where
  clat : I → X K
  clon : I → X K
  crad : I → X K
  legendre : X K → P
  cossin : X K → Q
  radpow : X K → R
  eval : I → P → Q → R → C → O

/-- The part of `MODEL` which changes, pymm_sheval.h lines 81-91. -/
structure Cache (K P Q R : Type) where
  clatLast : X K
  clonLast : X K
  cradLast : X K
  lp : P
  lcs : Q
  rrp : R

variable {K I P Q R C O : Type} [Field K] [LinearOrder K]

/-- `_model_init`, pymm_sheval.h lines 641-680: the buffers are not initialised
(`malloc`), so their content is a parameter. -/
def cacheInit (lp : P) (lcs : Q) (rrp : R) : Cache K P Q R := ⟨.nan, .nan, .nan, lp, lcs, rrp⟩

/-- `_model_eval`, pymm_sheval.h lines 501-597. -/
def modelEval (k : Kernel K I P Q R C O) (c : Cache K P Q R) (x : I) (coeff : C) :
    Cache K P Q R × O :=
  let clat := k.clat x
  let clon := k.clon x
  let crad := k.crad x
  let lp := if !(X.eq c.clatLast clat) then k.legendre clat else c.lp        -- line 540
  let lcs := if !(X.eq c.clonLast clon) then k.cossin clon else c.lcs        -- line 544
  let rrp := if !(X.eq c.cradLast crad) then k.radpow crad else c.rrp        -- line 548
  (⟨clat, clon, crad, lp, lcs, rrp⟩, k.eval x lp lcs rrp coeff)

/-- `_sheval_pot`, `_sheval_grd`, `_sheval_pot_and_grd`, pymm_sheval.h lines 391-497, on
the flat list of the points and their coefficient arrays. -/
def shevalBatch (k : Kernel K I P Q R C O) : Cache K P Q R → List (I × C) → Cache K P Q R × List O
  | c, [] => (c, [])
  | c, (x, coeff) :: l =>
    let (c1, o) := modelEval k c x coeff
    let (c2, os) := shevalBatch k c1 l
    (c2, o :: os)

/-- `COEF_SET`, pymm_shevaltemp.h lines 68-82, without `idx_last`: node times, one row of
values per coefficient, degrees and orders. -/
structure CoefSet (K : Type) where
  ct : List (X K)
  cv : List (List (X K))
  cm : List (Int × Int)
  kind : Kind

/-- `parse_coefset` with `_coefset_init`, pymm_shevaltemp.h lines 371-458, 667-724; `none`
is `ValueError`.  The arrays are given with the dimensions 1, 2, 2. -/
def parseCoefset (ct : List (X K)) (cv : List (List (X K))) (cm : List (Int × Int))
    (splineOrder : Int) : Option (CoefSet K) :=
  if splineOrder < 1 ∨ splineOrder > 2 then none
  else if cv.length ≠ cm.length then none
  else if cv.any (fun row => row.length ≠ ct.length) then none
  else some ⟨ct, cv, cm, if splineOrder = 1 then .c0 else .c1⟩

/-- Offset with the sign telling the column, pymm_shevaltemp.h lines 695-703. -/
def offsetOf (n m : Int) : Int :=
  let offset := (n * (n + 1)).tdiv 2 + (if m < 0 then -m else m)
  let sign := if m < 0 then -1 else 1
  sign * offset

/-- Degree of the sets, pymm_shevaltemp.h lines 244, 685, 703. -/
def setsDegree (sets : List (CoefSet K)) : Int :=
  sets.foldl (fun d s => max d (s.cm.foldl (fun d e => max d e.1) 0)) 0

/-- The write loop of `_coeff_set_interp0/1`, pymm_shevaltemp.h lines 738-745, 758-765;
`none` is an access outside of an array. -/
def writeSet (value : List (X K) → Option (X K)) (s : CoefSet K) (coef : Tab (X K)) :
    Option (Tab (X K)) :=
  (s.cm.zip s.cv).foldlM (fun t e => do
    let v ← value e.2
    let o := offsetOf e.1.1 e.1.2
    setItem t |o| (decide (o < 0)) v) coef

/-- `_coeff_set_interp0`, pymm_shevaltemp.h lines 729-748: the new coefficients and the
new `idx_last`. -/
def setInterp0 (t : X K) (s : CoefSet K) (idxLast : Int) (coef : Tab (X K)) :
    Option (Tab (X K) × Int) := do
  let basis ← interp0Basis t s.ct
  if idxLast = basis.i then return (coef, idxLast)
  let coef' ← writeSet (interp0Eval basis) s coef
  return (coef', basis.i)

/-- `_coeff_set_interp1`, pymm_shevaltemp.h lines 753-767. -/
def setInterp1 (t : X K) (s : CoefSet K) (idxLast : Int) (coef : Tab (X K)) :
    Option (Tab (X K) × Int) := do
  let basis ← interp1Basis t s.ct
  let coef' ← writeSet (interp1Eval basis) s coef
  return (coef', idxLast)

/-- Call through the function pointer, pymm_shevaltemp.h lines 707-718. -/
def setInterp (t : X K) (s : CoefSet K) (idxLast : Int) (coef : Tab (X K)) :
    Option (Tab (X K) × Int) :=
  match s.kind with
  | .c0 => setInterp0 t s idxLast coef
  | _ => setInterp1 t s idxLast coef

/-- `_coeff_interp`, pymm_shevaltemp.h lines 463-473 (the list of `idx_last` is beside the
list of the sets). -/
def coeffInterp (t : X K) : List (CoefSet K) → List Int → Tab (X K) →
    Option (Tab (X K) × List Int)
  | s :: sets, i :: idx, coef => do
    let (coef1, i1) ← setInterp t s i coef
    let (coef2, idx2) ← coeffInterp t sets idx coef1
    return (coef2, i1 :: idx2)
  | _, _, coef => some (coef, [])

/-- `MODEL_TS`, pymm_shevaltemp.h lines 94-100. -/
structure TS (K P Q R : Type) where
  coef : Tab (X K)
  timeLast : X K
  idxLast : List Int
  sh : Cache K P Q R

/-- One time with its points (an array of points can belong to one time),
pymm_shevaltemp.h lines 500-511, 535-546, 573-584. -/
def tsItem (k : Kernel K I P Q R (Tab (X K)) O) (sets : List (CoefSet K)) (st : TS K P Q R)
    (t : X K) (xs : List I) : Option (TS K P Q R × List O) := do
  let (coef, idx, last) ←
    if !(X.eq t st.timeLast) then do
      let (coef, idx) ← coeffInterp t sets st.idxLast st.coef
      pure (coef, idx, t)
    else pure (st.coef, st.idxLast, st.timeLast)
  let (sh, os) := shevalBatch k st.sh (xs.map (fun x => (x, coef)))
  return (⟨coef, last, idx, sh⟩, os)

/-- The loop over the times. -/
def tsLoop (k : Kernel K I P Q R (Tab (X K)) O) (sets : List (CoefSet K)) :
    TS K P Q R → List (X K × List I) → Option (List (List O))
  | _, [] => some []
  | st, (t, xs) :: l => do
    let (st', os) ← tsItem k sets st t xs
    let rest ← tsLoop k sets st' l
    return os :: rest

/-- `_model_ts_init`, pymm_shevaltemp.h lines 609-642; `idx_last` from line 686. -/
def tsInit (sets : List (CoefSet K)) (sh : Cache K P Q R) : TS K P Q R :=
  ⟨zeros (X K) (setsDegree sets), .nan, sets.map (fun _ => -1), sh⟩

/-- `shevaltemp` after the parsing of the arguments. -/
def shevaltemp (k : Kernel K I P Q R (Tab (X K)) O) (sets : List (CoefSet K)) (lp : P) (lcs : Q)
    (rrp : R) (items : List (X K × List I)) : Option (List (List O)) :=
  tsLoop k sets (tsInit sets (cacheInit lp lcs rrp)) items

/-- `SparseSHCoefficientsTimeDependent.get_coefficient_sets`, coefficients.py lines
461-467 (the list has one item; the combined class concatenates, lines 308-313). -/
def coefSetOf (td : TimeDep K) (minDegree maxDegree : Int) : CoefSet K :=
  let sub := subsetDegree td.entries minDegree maxDegree
  ⟨td.times, sub.2.map Prod.snd, sub.2.map Prod.fst, td.kind⟩

/-- State of `MODEL_2DFS`, pymm_sheval2dfs.h lines 70-76. -/
structure FS (K P Q R : Type) where
  coef : Tab (X K)
  time1Last : X K
  time2Last : X K
  sh : Cache K P Q R

/-- `_sheval2dfs_eval_coeff`, pymm_sheval2dfs.h lines 489-520; `fourier t1 t2 row` is the
2D Fourier series of one coefficient (Model/Fourier.lean). -/
def fsCoeff {A : Type} (fourier : X K → X K → A → X K) (cm : List (Int × Int)) (ab : List A)
    (t1 t2 : X K) (coef : Tab (X K)) : Option (Tab (X K)) :=
  (cm.zip ab).foldlM (fun t e =>
    let o := offsetOf e.1.1 e.1.2
    setItem t |o| (decide (o < 0)) (fourier t1 t2 e.2)) coef

/-- One pair of times with its points, pymm_sheval2dfs.h lines 396-408. -/
def fsItem {A : Type} (k : Kernel K I P Q R (Tab (X K)) O) (fourier : X K → X K → A → X K)
    (cm : List (Int × Int)) (ab : List A) (st : FS K P Q R) (t1 t2 : X K) (xs : List I) :
    Option (FS K P Q R × List O) := do
  let (coef, l1, l2) ←
    if !(X.eq t1 st.time1Last) || !(X.eq t2 st.time2Last) then do
      let coef ← fsCoeff fourier cm ab t1 t2 st.coef
      pure (coef, t1, t2)
    else pure (st.coef, st.time1Last, st.time2Last)
  let (sh, os) := shevalBatch k st.sh (xs.map (fun x => (x, coef)))
  return (⟨coef, l1, l2, sh⟩, os)

/-- The loop over the times. -/
def fsLoop {A : Type} (k : Kernel K I P Q R (Tab (X K)) O) (fourier : X K → X K → A → X K)
    (cm : List (Int × Int)) (ab : List A) :
    FS K P Q R → List ((X K × X K) × List I) → Option (List (List O))
  | _, [] => some []
  | st, ((t1, t2), xs) :: l => do
    let (st', os) ← fsItem k fourier cm ab st t1 t2 xs
    let rest ← fsLoop k fourier cm ab st' l
    return os :: rest

/-- `sheval2dfs` after the parsing of the arguments, pymm_sheval2dfs.h lines 543-578. -/
def sheval2dfs {A : Type} (k : Kernel K I P Q R (Tab (X K)) O) (fourier : X K → X K → A → X K)
    (cm : List (Int × Int)) (ab : List A) (lp : P) (lcs : Q) (rrp : R)
    (items : List ((X K × X K) × List I)) : Option (List (List O)) :=
  fsLoop k fourier cm ab
    ⟨zeros (X K) (cm.foldl (fun d e => max d e.1) 0), .nan, .nan, cacheInit lp lcs rrp⟩ items

end Verif.ShEval
