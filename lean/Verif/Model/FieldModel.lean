/-
Model of the evaluation of spherical harmonic models on arrays: from the coefficient objects
to the call of `shevaltemp` and back to the array of the field vectors.
Source: eoxmagmod/eoxmagmod/magnetic_model/model.py, coefficients.py

The times are doubles which may be NaN or infinite, the locations are finite.  The items
of a result are `none` where they are NaN.
-/
import Verif.Model.TimedApi
import Verif.Model.ElemApi
import Verif.Model.ModelEval
import Verif.Model.Shapes
import Verif.Model.Time

namespace Verif.Field

open Verif.Buf Verif.Geo Verif.Arr Verif.Coeffs Verif.FullEval Verif.ShEval Verif.Interp Verif.ModelEval

variable {K : Type}

/-- Sparse coefficients: `SparseSHCoefficientsTimeDependent`, its subclass
`SparseSHCoefficientsConstant` (both without `convert_time`), and
`SparseSHCoefficientsTimeDependentDecimalYear` (`decimalYear`), coefficients.py lines
405-537, with the conversions of the time not replaced by options. -/
structure Sparse (K : Type) where
  td : TimeDep K
  decimalYear : Bool
  isInternal : Bool

/-- `time_scales`, coefficients.py lines 410 and 518: the class interpolating in decimal years
has the same time scale as its parent.  (Line 484 of the constant class assigns another attribute.) -/
def Sparse.timeScales (s : Sparse K) : List String :=
  if s.decimalYear then ["MJD2000"] else ["MJD2000"]

/-- A component of a model, model.py lines 79-84: the validity and the coefficients, which are
one sparse object or a `CombinedSHCoefficients` of several. -/
structure Component (K : Type) where
  vs : X K
  ve : X K
  items : List (Sparse K)

/-- Evaluation methods, model.py lines 86-107. -/
inductive Method where
  | interpolated
  | default
deriving DecidableEq, Repr

/-- `_select_evaluation_method`, model.py lines 86-107 (the members of a combined object have
`get_coefficient_sets`; `time_scales` of combined coefficients, coefficients.py lines
248-254, is a set). -/
def Component.method (c : Component K) : Method :=
  match c.items with
  | [_] => .interpolated
  | l => if (l.flatMap Sparse.timeScales).eraseDups.length > 1 then .default else .interpolated

/-- `getattr(coefficients, "convert_time", None)`, model.py line 170, coefficients.py lines
315-322 and 527: is there a conversion? -/
def Component.converts (c : Component K) : Bool := c.items.any Sparse.decimalYear

/-- `is_internal` of the coefficients, coefficients.py lines 270, 291. -/
def Component.isInternal (c : Component K) : Bool := (c.items.head?.map Sparse.isInternal).getD true

section
variable [Field K] [LinearOrder K]

/-- `_is_valid`, model.py lines 131-132. -/
def Component.isValid (c : Component K) (t : X K) : Bool := X.le c.vs t && X.le t c.ve

/-- `get_coefficient_sets`, coefficients.py lines 461-467 (308-313 for combined
coefficients), with the degree options. -/
def Sparse.rawSet (minDegree maxDegree : Int) (s : Sparse K) : RawSet K :=
  let sub := subsetDegree s.td.entries minDegree maxDegree
  ⟨s.td.times, sub.2.map Prod.snd, sub.2.map Prod.fst,
    match s.td.kind with | .c0 => 1 | .c1 => 2 | .c1d1 => 0⟩

/-- `-asarray(options.get("scale", 1.0))`, model.py line 181. -/
def negScale : Scale K → Scale K
  | .default => .scalar (-1)
  | .scalar s => .scalar (-s)
  | .vector l => .vector (l.map (fun v => -v))

/-- The memory of an array of finite times; the evaluation at infinite times is not modelled. -/
def finMem (mem : Int → Option (X K)) (p : Int) : Option K :=
  match mem p with
  | some (.fin a) => some a
  | _ => none

/-- What happens in C besides the arguments of the functions. -/
structure Env (K St : Type) where
  evalP : Config K → Nat → Eval St K
  start : Nat → St
  junk : Nat → List K
  junkX : Nat → List (X K)
  year : Int

/-- Options of `eval`. -/
structure Options (K : Type) where
  minDegree : Int
  maxDegree : Int
  scale : Scale K

/-- The times of the evaluation, model.py lines 170-172. -/
def convertTimes [FloorRing K] {St : Type} (env : Env K St) (c : Component K) (time : NdArray (X K)) :
    Except Err (NdArray (X K)) :=
  if c.converts then timeArr (Time.mjd2kToDecimalYearX env.year) env.junkX time else .ok time

/-- `_eval_interpolated`, model.py lines 165-182: gradient of the items in flat order. -/
def evalComponent [FloorRing K] {St : Type} (env : Env K St) (c : Component K) (time : NdArray (X K)) (loc : NdArray K)
    (ctIn ctOut : Int) (opt : Options K) : Except Err (List K) := do
  let time ← convertTimes env c time
  let r ← shevaltempArr env.evalP env.start env.junk ⟨finMem time.mem, time.arr⟩ loc
    (c.items.map (Sparse.rawSet opt.minDegree opt.maxDegree)) ctIn ctOut 2 c.isInternal 1 (negScale opt.scale)
  orMemory r.grd

/-- Items of a strided array in C order. -/
def readAll {A : Type} (mem : Int → Option A) : List Nat → List Int → Int → Option (List A)
  | [], _, p => (mem p).map (fun a => [a])
  | n :: d, s :: t, p => ((List.range n).mapM (fun i : Nat => readAll mem d t (p + i * s))).map List.flatten
  | _ :: _, [], _ => none

/-- `m` rows of `n` items. -/
def rowsOf {A : Type} (m n : Nat) (l : List A) : List (List A) :=
  (List.range m).map (fun i => (l.drop (i * n)).take n)

/-- `full(shape, nan)` put together with the rows assigned to. -/
def flatRows {A : Type} (n : Nat) (rows : List (Option (List A))) : List (Option A) :=
  rows.flatMap (fun r => match r with
    | none => List.replicate n none
    | some l => l.map some)

/-- Exceptions of the reshaping and of the functions called. -/
inductive Failure where
  | shape (e : Shapes.Err)
  | call (e : Err)
deriving DecidableEq, Repr

/-- Exception of a call. -/
def called {A : Type} : Except Err A → Except Failure A
  | .ok a => .ok a
  | .error e => .error (.call e)

/-- `eval` of `SphericalHarmomicGeomagneticModel`, model.py lines 122-157, with the method `_eval`
of the class (`evalC`); shape and items of the result.
`time[mask]` and `location[mask, :]` are new arrays, which are taken to be C contiguous. -/
def evalModelWith (evalC : Component K → NdArray (X K) → NdArray K → Except Err (List K)) (parts : List (Component K))
    (time : NdArray (X K)) (loc : NdArray K) : Except Failure (List Nat × List (Option K)) :=
  match Shapes.reshapeTimesAndCoordinates time.arr loc.arr with
  | .error e => .error (.shape e)
  | .ok (ta, la) =>
    match ta.dim with
    | [] => do
      let t ← called (orMemory (time.mem ta.data))
      match parts.find? (fun c => c.isValid t) with
      | none => return (la.dim, List.replicate la.dim.prod none)
      | some c => do
        let g ← called (evalC c ⟨time.mem, ta⟩ ⟨loc.mem, la⟩)
        return (la.dim, g.map some)
    | dims => do
      let n := la.dim.getLastD 0
      let ts ← called (orMemory (readAll time.mem dims ta.stride ta.data))
      let xs ← called (orMemory (readAll loc.mem la.dim la.stride la.data))
      let rows := rowsOf dims.prod n xs
      let result ← parts.foldlM (fun result c => do
        let mask := ts.map c.isValid
        let tk := pick mask ts
        let xk := pick mask rows
        let g ← called (evalC c (newArray [tk.length] tk) (newArray [tk.length, n] xk.flatten))
        return put mask (rowsOf tk.length n g) result) (List.replicate dims.prod none)
      return (la.dim, flatRows n result)

/-- `eval` of `SphericalHarmomicGeomagneticModel`, model.py lines 122-163, for components
evaluated by `_eval_interpolated` (theorem `C74_method`). -/
def evalModel [FloorRing K] {St : Type} (env : Env K St) (parts : List (Component K)) (time : NdArray (X K))
    (loc : NdArray K) (ctIn ctOut : Int) (opt : Options K) : Except Failure (List Nat × List (Option K)) :=
  evalModelWith (fun c time loc => evalComponent env c time loc ctIn ctOut opt) parts time loc
end

end Verif.Field
