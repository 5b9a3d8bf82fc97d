import Verif.Model.FullEval

/-!
# Evaluation in the frame of the magnetic dipole

`sheval_dipole` of dipole.py on the flat list of the points.
-/

namespace Verif.DipoleEval

open Verif.Geo Verif.ShPoint Verif.FullEval

variable {K : Type} [Field K]

/-- Rotation of the gradients and multiplication by the scale, dipole.py lines 78-81 and
86-89 (`rotate_vectors_from_dipole(...) * scale_gradient`, a scalar scale is the vector with
three equal items).  `none` is the exception raised by `convert`. -/
def rotateAll [DecidableEq K] (L : Libm K) (latNgp lonNgp : K) (ctIn ctOut : Int) (sg : V3 K) :
    List (V3 K) → List (V3 K) → List (Out K) → Option (List (Out K))
  | v :: vs, d :: ds, o :: os => do
    let g ← o.2
    let w ← rotateVectorsFromDipole L g latNgp lonNgp d v ctIn ctOut
    let rest ← rotateAll L latNgp lonNgp ctIn ctOut sg vs ds os
    return (o.1, some ⟨w.x * sg.x, w.y * sg.y, w.z * sg.z⟩) :: rest
  | _, _, _ => some []

/-- `sheval_dipole`, dipole.py lines 39-89.  The `sheval` it calls is the one of
Model/FullEval.lean with the default gradient scale, on the flat list of points with their
coefficient arrays; `none` for the exceptions (unknown coordinate types, unknown modes).
The arrays of `sheval` are in Model/ArrayApi.lean; `degree` is the degree it derives. -/
def shevalDipole [DecidableEq K] (L : Libm K) (small : K → Bool) (hiScale : K) (isInternal : Bool)
    (degree : Nat) (ctIn ctOut : Int) (mode : Nat) (sp : K) (sg : V3 K) (latNgp lonNgp : K) (mem : Mem K)
    (l : List (V3 K × List (K × K))) : Option (List (Out K)) := do
  let d ← l.mapM (fun q => convertToDipole L q.1 latNgp lonNgp ctIn)           -- line 68
  let r ← (if mode = 1 ∨ mode = 2 ∨ mode = 3 then
      batch L small hiScale (config isInternal degree .spherical .spherical sp ⟨1, 1, 1⟩) mode (init mem)
        (d.zip (l.map Prod.snd))                                                -- lines 69-75
    else none)
  if mode = 2 then rotateAll L latNgp lonNgp ctIn ctOut sg (l.map Prod.fst) d r -- lines 77-81
  else if mode = 1 then some r                                                  -- lines 82-83
  else rotateAll L latNgp lonNgp ctIn ctOut sg (l.map Prod.fst) d r             -- lines 84-89

end Verif.DipoleEval
