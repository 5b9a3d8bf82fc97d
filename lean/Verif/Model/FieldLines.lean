/-
Model of the field line tracing.
Source: eoxmagmod/eoxmagmod/magnetic_model/field_lines.py

A position or a vector is `none` if its components are NaN.  `ev` is `model.eval` at the
fixed time with Cartesian input and output and the given model options.
-/
import Verif.Model.Geo
import Mathlib.Order.Defs.LinearOrder

namespace Verif.FieldLines

open Verif.Geo

variable {K : Type} [Field K] [LinearOrder K] (L : Libm K)

/-- `EARTH_RADIUS`, field_lines.py line 35. -/
def earthRadius : K := 63712 / 10

/-- Options of the tracing with their values or defaults, field_lines.py lines 36-39,
109-110, 119-120. -/
structure Options (K : Type) where
  step : K
  maxSteps : Int
  minRadius : K
  maxRadius : K

def scaled (s : K) (v : V3 K) : V3 K := ⟨s * v.x, s * v.y, s * v.z⟩

def plus (v w : V3 K) : V3 K := ⟨v.x + w.x, v.y + w.y, v.z + w.z⟩

/-- `_eval_model`, field_lines.py lines 97-104: the direction and the field vector.  A
comparison with NaN is false. -/
def evalDir (ev : Option (V3 K) → Option (V3 K)) (backward : Bool) (radius : K) (point : Option (V3 K)) :
    Option (V3 K) × Option (V3 K) :=
  let direction : K := if backward then -1 else 1
  let fieldVector := ev point
  let scale : Option K := match fieldVector with
    | none => some 0
    | some v =>
      if vnorm L v > 0 then point.map (fun p => direction * vnorm L p / (radius * vnorm L v))
      else some 0
  ((do return scaled (← scale) (← fieldVector)), fieldVector)

/-- `_did_converge`, field_lines.py lines 112-114. -/
def didConverge (opt : Options K) (point : Option (V3 K)) : Bool := match point with
  | none => false
  | some p => decide (vnorm L p ≤ opt.minRadius) || decide (vnorm L p ≥ opt.maxRadius)

/-- `point += step * direction`, field_lines.py line 130. -/
def advance (step : K) (point direction : Option (V3 K)) : Option (V3 K) := do
  return plus (← point) (scaled step (← direction))

/-- The loop of `_trace_field_line`, field_lines.py lines 126-134: point, points and
vectors after at most `n` steps. -/
def traceLoop (em : Option (V3 K) → Option (V3 K) × Option (V3 K)) (opt : Options K) :
    Nat → Option (V3 K) → List (Option (V3 K)) → List (Option (V3 K)) →
      Option (V3 K) × List (Option (V3 K)) × List (Option (V3 K))
  | 0, point, points, vectors => (point, points, vectors)
  | n + 1, point, points, vectors =>
    let r := em point
    let vectors := vectors ++ [r.2]
    let point := advance opt.step point r.1
    let points := points ++ [point]
    if didConverge L opt point then (point, points, vectors)
    else traceLoop em opt n point points vectors

/-- `_trace_field_line`, field_lines.py lines 119-139. -/
def traceSegment (em : Option (V3 K) → Option (V3 K) × Option (V3 K)) (opt : Options K)
    (start : Option (V3 K)) : List (Option (V3 K)) × List (Option (V3 K)) :=
  let r := traceLoop L em opt opt.maxSteps.toNat start [start] []
  (r.2.1, r.2.2 ++ [(em r.1).2])

/-- The joined segments, field_lines.py lines 65-79; `radius` is the optional model option
(line 90). -/
def traceCartesian (ev : Option (V3 K) → Option (V3 K)) (radius : K) (opt : Options K) (start : Option (V3 K)) :
    List (Option (V3 K)) × List (Option (V3 K)) :=
  let down := traceSegment L (evalDir L ev false radius) opt start
  let up := traceSegment L (evalDir L ev true radius) opt start
  (up.1.reverse.dropLast ++ down.1, up.2.reverse.dropLast ++ down.2)

/-- One row of `convert(coords, GEOCENTRIC_CARTESIAN, output_coordinate_system)`,
field_lines.py line 82. -/
def outPoint (o : Int) : Option (V3 K) → Option (Option (V3 K))
  | none => some none
  | some p => (convert L p 2 o).map some

/-- One row of `vrotate(field, None, coords, GEOCENTRIC_CARTESIAN, output_coordinate_system)`,
field_lines.py lines 83-85; a Cartesian output is returned as it is (util.py lines 58-59). -/
def outVector (o : Int) (q : Option (V3 K) × Option (V3 K)) : Option (Option (V3 K)) :=
  match q.1, q.2 with
  | none, _ => some none
  | some f, some c => (vrotate L f none (some c) 2 o).map some
  | some f, none => if o = 2 then some (some f) else some none

/-- `trace_field_line`, field_lines.py lines 42-87: the coordinates and the vectors in the
output system; `none` is `ValueError`. -/
def traceFieldLine (ev : Option (V3 K) → Option (V3 K)) (radius : K) (opt : Options K) (i o : Int)
    (point : V3 K) : Option (List (Option (V3 K)) × List (Option (V3 K))) := do
  let point ← convert L point i 2
  let r := traceCartesian L ev radius opt (some point)
  let coords ← r.1.mapM (outPoint L o)
  let field ← (List.zip r.2 coords).mapM (outVector L o)
  return (coords, field)

end Verif.FieldLines
