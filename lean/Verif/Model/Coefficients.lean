/-
Model of the coefficient classes.
Source: eoxmagmod/eoxmagmod/magnetic_model/coefficients.py, util.py

A dense coefficient table of shape `(size, 2)` is a list of pairs.  Python
exceptions are `none`.
-/
import Verif.Model.Interp
import Mathlib.Algebra.Order.Group.Int
import Mathlib.Order.BoundedOrder.Basic
import Mathlib.Algebra.Group.Defs
import Mathlib.Data.List.Sort

namespace Verif.Coeffs

open Verif.Interp

/-- Dense table. -/
abbrev Tab (V : Type) := List (V × V)

/-- `coeff_size`, util.py lines 45-47. -/
def coeffSize (degree : Int) : Int := ((degree + 2) * (degree + 1)) / 2

/-- `numpy.zeros((coeff_size(degree), 2))` -/
def zeros (V : Type) [Zero V] (degree : Int) : Tab V :=
  List.replicate (coeffSize degree).toNat (0, 0)

/-- Row of the coefficient, coefficients.py line 356. -/
def rowIdx (n m : Int) : Int := |m| + (n * (n + 1)) / 2

/-- Column of the coefficient, coefficients.py line 357. -/
def colIdx (m : Int) : Bool := decide (m < 0)

/-- Assignment of one array item, `IndexError` if the row does not exist.  (Rows are
never negative here, see `rowIdx`.) -/
def setItem {V : Type} (t : Tab V) (row : Int) (col : Bool) (v : V) : Option (Tab V) :=
  if row.toNat < t.length then
    some (t.modify row.toNat (fun p => if col then (p.1, v) else (v, p.2)))
  else none

/-- Fill of the dense table: `coeff_full[..., index[:, 0], index[:, 1]] = values`,
coefficients.py lines 475-478, for one time (the assignments happen in order). -/
def fillTable {V : Type} [Zero V] (degree : Int) (entries : List ((Int × Int) × V)) :
    Option (Tab V) :=
  entries.foldlM (fun t e => setItem t (rowIdx e.1.1 e.1.2) (colIdx e.1.2) e.2) (zeros V degree)

/-- `n_idx.max()`, coefficients.py line 352 (numpy raises for an empty array; the
model gives 0 and the theorems ask for a non-empty set). -/
def maxN {V : Type} : List ((Int × Int) × V) → Int
  | [] => 0
  | e :: l => l.foldl (fun a x => max a x.1.1) e.1.1

/-- `n_idx.min()`, coefficients.py line 353. -/
def minN {V : Type} : List ((Int × Int) × V) → Int
  | [] => 0
  | e :: l => l.foldl (fun a x => min a x.1.1) e.1.1

/-- `subset_degree`, coefficients.py lines 369-402: degree and the selected entries
(the rows of `coeff`, `nm_` and `index` are kept together). -/
def subsetDegree {V : Type} (entries : List ((Int × Int) × V)) (minDegree maxDegree : Int) :
    Int × List ((Int × Int) × V) :=
  let defaultMax := maxN entries
  let defaultMin := minN entries
  let maxDegree := if maxDegree < 0 then defaultMax else maxDegree
  let minDegree := if minDegree < 0 then defaultMin else minDegree
  if minDegree > defaultMin || maxDegree < defaultMax then
    let sel := entries.filter (fun e => decide (e.1.1 ≤ maxDegree) && decide (e.1.1 ≥ minDegree))
    if sel.length > 0 then (maxN sel, sel) else (0, sel)
  else (defaultMax, entries)

section timedep
variable {K : Type} [Field K] [LinearOrder K]

instance : Zero (X K) := ⟨.fin 0⟩
instance : Add (X K) := ⟨X.add⟩

/-- `SparseSHCoefficientsTimeDependent` after the constructor. -/
structure TimeDep (K : Type) where
  times : List (X K)
  entries : List ((Int × Int) × List (X K))
  kind : Kind

/-- `argsort(times)`: indices sorting the times (NaN excluded); numpy does not
promise an order of equal times, the model takes the stable one. -/
def argsort (times : List (X K)) : List Nat :=
  (List.range times.length).mergeSort (fun i j => X.le (times.getD i .nan) (times.getD j .nan))

/-- Constructor of `SparseSHCoefficientsTimeDependent`, coefficients.py lines
412-459, for two-dimensional indices: shape checks, sorting by time, spline order
(the validity and the optional conversion of the node times are not in this record).
`none` is `ValueError`. -/
def mkTimeDep (indices : List (Int × Int)) (coefficients : List (List (X K)))
    (times : List (X K)) (splineOrder : Int) : Option (TimeDep K) :=
  if indices.length ≠ coefficients.length then none
  else if coefficients.any (fun row => row.length ≠ times.length) then none
  else
    let order := argsort times
    let times' := order.map (fun i => times.getD i .nan)
    let coefficients' := coefficients.map (fun row => order.map (fun i => row.getD i .nan))
    if splineOrder = 1 then some ⟨times', indices.zip coefficients', .c0⟩
    else if splineOrder = 2 then some ⟨times', indices.zip coefficients', .c1⟩
    else none

/-- Values of the sparse coefficients at one time: `interp(..., extrapolate=True)`. -/
def interpEntries (kind : Kind) (times : List (X K)) (t : X K)
    (entries : List ((Int × Int) × List (X K))) : Option (List ((Int × Int) × X K)) :=
  entries.mapM fun e =>
    match interp kind true t times e.2 with
    | .ok x => some (e.1, x)
    | _ => none

/-- `SparseSHCoefficientsTimeDependent.__call__` for one time, coefficients.py lines
469-479; `convert` is the optional `convert_time`. -/
def callSingle (td : TimeDep K) (convert : X K → X K) (minDegree maxDegree : Int) (t : X K) :
    Option (Tab (X K) × Int) := do
  let sub := subsetDegree td.entries minDegree maxDegree
  let vals ← interpEntries td.kind td.times (convert t) sub.2
  let tab ← fillTable sub.1 vals
  return (tab, sub.1)

/-- The same for an array of times: one degree, one table per time. -/
def callMulti (td : TimeDep K) (convert : X K → X K) (minDegree maxDegree : Int)
    (ts : List (X K)) : Option (List (Tab (X K)) × Int) := do
  let sub := subsetDegree td.entries minDegree maxDegree
  let tabs ← ts.mapM fun t => do
    let vals ← interpEntries td.kind td.times (convert t) sub.2
    fillTable sub.1 vals
  return (tabs, sub.1)

/-- Constructor of `SparseSHCoefficientsConstant`, coefficients.py lines 486-510. -/
def mkConstant (indices : List (Int × Int)) (coefficients : List (X K)) : Option (TimeDep K) :=
  mkTimeDep indices (coefficients.map (fun c => [c])) [.ninf] 1

end timedep

/-- The part of the coefficient interface used by the composed and combined classes:
validity test, degree range, source flag, evaluation at one time and at an array of
times (the call parameters are fixed). -/
structure Member (T V : Type) where
  valid : T → Bool
  degree : Int
  minDegree : Int
  isInternal : Bool
  single : T → Option (Tab V × Int)
  multi : List T → Option (List (Tab V) × Int)

section composed
variable {T V : Type}

/-- `coeff[:size] = item` for one table. -/
def overwrite (acc item : Tab V) : Option (Tab V) :=
  if item.length ≤ acc.length then some (item ++ acc.drop item.length) else none

/-- `coeff[mask, :size, :] = items`: assign the tables of the masked positions. -/
def scatter : List Bool → List (Tab V) → List (Tab V) → Option (List (Tab V))
  | true :: mask, it :: items, a :: acc => do
    let x ← overwrite a it
    let rest ← scatter mask items acc
    return x :: rest
  | false :: mask, items, a :: acc => do
    let rest ← scatter mask items acc
    return a :: rest
  | [], [], [] => some []
  | _, _, _ => none

/-- `time[mask]` -/
def select : List Bool → List T → List T
  | true :: mask, t :: ts => t :: select mask ts
  | false :: mask, _ :: ts => select mask ts
  | _, _ => []

/-- Loop over the items in `_get_coeff_multi_time`, coefficients.py lines 204-209:
degree, list of (mask, tables), remaining mask. -/
def multiLoop (times : List T) : List (Member T V) → List Bool → Int →
    Option (Int × List (List Bool × List (Tab V)) × List Bool)
  | [], mask, degree => some (degree, [], mask)
  | item :: items, mask, degree => do
    let itemMask := List.zipWith (fun b t => b && item.valid t) mask times
    let (coeff, itemDegree) ← item.multi (select itemMask times)
    let mask' := List.zipWith (fun b c => b && !c) mask itemMask
    let (d, res, m) ← multiLoop times items mask' (max degree itemDegree)
    return (d, (itemMask, coeff) :: res, m)

/-- `ComposedSHCoefficients._get_coeff_multi_time`, coefficients.py lines 198-219, for
the flat list of times. -/
def composedMulti [Zero V] (items : List (Member T V)) (times : List T) :
    Option (List (Tab V) × Int) := do
  let mask := List.replicate times.length true
  let (degree, results, mask') ← multiLoop times items mask 0
  let first ← items.head?
  let (coeff0, degree0) ← first.multi (select mask' times)
  let degree := max degree degree0
  let coeff := List.replicate times.length (zeros V degree)
  let out ← (results ++ [(mask', coeff0)]).foldlM (fun acc r => scatter r.1 r.2 acc) coeff
  return (out, degree)

/-- `ComposedSHCoefficients._get_coeff_single_time`, coefficients.py lines 221-225. -/
def composedSingle (items : List (Member T V)) (t : T) : Option (Tab V × Int) :=
  match items.find? (fun i => i.valid t) with
  | some i => i.single t
  | none => do
    let first ← items.head?
    first.single t

/-- `coeff[..., :size, :] += item` for one table. -/
def addInto [Add V] (acc item : Tab V) : Option (Tab V) :=
  if item.length ≤ acc.length then
    some (List.zipWith (fun a b => (a.1 + b.1, a.2 + b.2)) acc item ++ acc.drop item.length)
  else none

/-- `CombinedSHCoefficients.__call__`, coefficients.py lines 324-337, scalar time. -/
def combinedSingle [Zero V] [Add V] (items : List (Member T V)) (t : T) :
    Option (Tab V × Int) := do
  let results ← items.mapM (fun i => i.single t)
  let degree := results.foldl (fun d r => max d r.2) 0
  let coeff ← results.foldlM (fun acc r => addInto acc r.1) (zeros V degree)
  return (coeff, degree)

/-- `CombinedSHCoefficients.__call__` for an array of times. -/
def combinedMulti [Zero V] [Add V] (items : List (Member T V)) (ts : List T) :
    Option (List (Tab V) × Int) := do
  let results ← items.mapM (fun i => i.multi ts)
  let degree := results.foldl (fun d r => max d r.2) 0
  let coeff := List.replicate ts.length (zeros V degree)
  let out ← results.foldlM
    (fun acc r => if r.1.length = acc.length then (List.zip acc r.1).mapM (fun p => addInto p.1 p.2)
      else none) coeff
  return (out, degree)

end composed

section validity
variable {T : Type} [LinearOrder T]

/-- What the composed and combined constructors look at. -/
structure Info (T : Type) where
  vs : T
  ve : T
  degree : Int
  minDegree : Int
  isInternal : Bool

/-- `SHCoefficients.is_valid`, coefficients.py lines 83-86. -/
def Info.isValid (i : Info T) (t : T) : Bool := decide (i.vs ≤ t) && decide (t ≤ i.ve)

/-- Python tuple comparison of the validities (`<=`). -/
def validityLe (a b : Info T) : Bool :=
  if a.vs = b.vs then decide (a.ve ≤ b.ve) else decide (a.vs ≤ b.vs)

/-- The loop of `ComposedSHCoefficients.__init__`, coefficients.py lines 143-171. -/
def composedLoop (isInternal : Bool) : List (Info T) → T → T → T → Int → Int →
    Option (T × T × Int × Int)
  | [], _, vs, ve, d, md => some (vs, ve, d, md)
  | i :: l, last, vs, ve, d, md =>
    if i.vs > last then none
    else if isInternal ≠ i.isInternal then none
    else composedLoop isInternal l i.ve (min vs i.vs) (max ve i.ve) (max d i.degree)
      (min md i.minDegree)

/-- `ComposedSHCoefficients.__init__`, coefficients.py lines 136-182; `none` is
`ValueError`.  The initial degrees are minus and plus infinity in the code; the first
pass replaces them, the model starts from the degrees of the first sorted item.
A single item is returned unchanged by `__new__` (lines 128-131). -/
def composedInit [BoundedOrder T] (items : List (Info T)) : Option (Info T) :=
  match items with
  | [] => none
  | first :: _ =>
    match items.mergeSort validityLe with
    | [] => none
    | s :: rest => do
      let (vs, ve, d, md) ← composedLoop first.isInternal (s :: rest) ⊤ ⊤ ⊥ s.degree s.minDegree
      return ⟨vs, ve, d, md, first.isInternal⟩

/-- `CombinedSHCoefficients.__init__`, coefficients.py lines 264-298. -/
def combinedInit : List (Info T) → Option (Info T)
  | [] => none
  | first :: rest => rest.foldlM (fun acc i =>
      if acc.isInternal ≠ i.isInternal then none
      else some ⟨max acc.vs i.vs, min acc.ve i.ve, max acc.degree i.degree,
        min acc.minDegree i.minDegree, acc.isInternal⟩) first

end validity

end Verif.Coeffs
