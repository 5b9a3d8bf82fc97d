/-
Model of the evaluation of spherical harmonic models over time.
Source: eoxmagmod/eoxmagmod/magnetic_model/model.py,
        eoxmagmod/eoxmagmod/magnetic_model/coefficients.py (`decompose`)
-/
import Verif.Model.Intervals

namespace Verif.ModelEval

open Verif.Intervals

section eval
variable {T L R : Type} [LinearOrder T]

/-- A component `((start, end), method, coefficients)`, model.py lines 79-84.  `ev` is
the evaluation of the coefficients with the selected method at one time and location,
`evs` the evaluation of arrays of times and locations. -/
structure Comp (T L R : Type) where
  s : T
  e : T
  ev : T → L → R
  evs : List (T × L) → List R

/-- `_is_valid`, model.py lines 131-132. -/
def Comp.isValid (c : Comp T L R) (t : T) : Bool := decide (t ≥ c.s) && decide (t ≤ c.e)

/-- `eval` with a scalar time, model.py lines 143-148, for each location; `none` is
NaN. -/
def evalScalar (comps : List (Comp T L R)) (t : T) (locs : List L) : List (Option R) :=
  match comps with
  | [] => locs.map (fun _ => none)
  | c :: rest => if c.isValid t then locs.map (fun l => some (c.ev t l)) else evalScalar rest t locs

/-- `x[mask]` -/
def pick {A : Type} : List Bool → List A → List A
  | true :: m, a :: as => a :: pick m as
  | false :: m, _ :: as => pick m as
  | _, _ => []

/-- `result[mask, :] = values` -/
def put : List Bool → List R → List (Option R) → List (Option R)
  | true :: m, v :: vs, _ :: rs => some v :: put m vs rs
  | false :: m, vs, r :: rs => r :: put m vs rs
  | _, _, rs => rs

/-- `eval` with an array of times, model.py lines 150-157, on the flat array of the
(time, location) pairs (the reshaping of model.py lines 127-129 is modelled in
Model/Shapes.lean). -/
def evalArray (comps : List (Comp T L R)) (pts : List (T × L)) : List (Option R) :=
  comps.foldl (fun result c =>
    let mask := pts.map (fun p => c.isValid p.1)
    put mask (c.evs (pick mask pts)) result) (pts.map (fun _ => none))

end eval

section decompose
variable {T S : Type}

/-- Coefficient objects: sparse sets with a validity, composed and combined objects
(the members in the supplied order). -/
inductive Tree (T S : Type) where
  | sparse (vs ve : T) (s : S)
  | composed (items : List (Tree T S))
  | combined (items : List (Tree T S))

variable [LinearOrder T] [BoundedOrder T]

/-- `CombinedSHCoefficients(*items)`: a single item is returned as it is,
coefficients.py lines 256-259. -/
def mkCombined (items : List (Tree T S)) : Tree T S :=
  match items with
  | [i] => i
  | _ => .combined items

mutual
/-- `decompose`, coefficients.py lines 114-118 (composed), 237-246 (combined), 346-347
(sparse). -/
def decompose : Tree T S → List (Iv T (Tree T S))
  | .sparse vs ve s => [⟨vs, ve, .sparse vs ve s⟩]
  | .composed items => decomposeComposed items
  | .combined items =>
    (decomposeCombined items [⟨⊥, ⊤, []⟩]).map (fun a => ⟨a.s, a.e, mkCombined a.o⟩)

/-- The loop of lines 116-117.  `get_nonoverlapping_intervals` always gives a result
(theorem C16_nonoverlapping). -/
def decomposeComposed : List (Tree T S) → List (Iv T (Tree T S))
  | [] => []
  | i :: l => (nonOverlapping (decompose i)).getD [] ++ decomposeComposed l

/-- The loop of lines 239-242 with the initial `None` replaced by the value it stands
for (util.py lines 175-176). -/
def decomposeCombined : List (Tree T S) → List (Iv T (List (Tree T S))) →
    List (Iv T (List (Tree T S)))
  | [], aggs => aggs
  | i :: l, aggs => decomposeCombined l (aggregate (decompose i) aggs)
end

/-- `_decompose_coefficients`, model.py lines 79-84; `ev` is the evaluation of a
coefficient object with the method selected for it at one time and location, array
evaluations work point by point (theorem C28 for `shevaltemp`, model.py lines 214-219
for the default method). -/
def components {L R : Type} (ev : Tree T S → T → L → R) (coefficients : Tree T S) :
    List (Comp T L R) :=
  (decompose coefficients).map (fun c =>
    ⟨c.s, c.e, ev c.o, fun pts => pts.map (fun p => ev c.o p.1 p.2)⟩)

end decompose

end Verif.ModelEval
