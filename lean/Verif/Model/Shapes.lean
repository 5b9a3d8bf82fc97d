/-
Model of the reshaping of the times, coordinates and parameters.
Source: eoxmagmod/eoxmagmod/magnetic_model/util.py

Strided views as in Model/Arrays.lean.
-/
import Verif.Model.Arrays

namespace Verif.Shapes

open Verif.Arr

/-- Python exceptions. -/
inductive Err where
  | valueError
  | typeError
  | indexError
deriving DecidableEq, Repr

/-- `reshape_times_and_coordinates`, util.py lines 66-94.  `coords.ndim[-1]` (line 83)
subscripts an integer.  Coordinates without dimensions: `ndim_common` is -1, the slice
`time.shape[:-1]` is compared with `()`, and `coords.shape[-1]` (line 79) raises
`IndexError`. -/
def reshapeTimesAndCoordinates (time coords : ArrD) : Except Err (ArrD × ArrD) :=
  match coords.dim with
  | [] => if time.dim.dropLast ≠ [] then .error .valueError else .error .indexError
  | _ :: _ =>
    let nloc := coords.dim.length - 1
    let common := min time.dim.length nloc
    let result := max time.dim.length nloc
    if time.dim.take common ≠ coords.dim.take common then .error .valueError
    else if nloc < result then .error .typeError
    else if 0 < time.dim.length ∧ time.dim.length < result then
      .ok (⟨time.data, coords.dim.dropLast, time.stride ++ List.replicate (result - common) 0⟩, coords)
    else .ok (time, coords)

/-- `reshape_array`, util.py lines 104-123. -/
def reshapeArray (shape : List Nat) (array : ArrD) : Except Err ArrD :=
  let common := min shape.length array.dim.length
  if shape.take common ≠ array.dim.take common ∨ shape.length < array.dim.length then .error .valueError
  else if array.dim.length < shape.length then
    .ok ⟨array.data, shape, array.stride ++ List.replicate (shape.length - array.dim.length) 0⟩
  else .ok array

end Verif.Shapes
