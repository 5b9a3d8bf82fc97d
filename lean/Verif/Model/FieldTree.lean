/-
Model of the evaluation of the models built from coefficient objects.
Source: eoxmagmod/eoxmagmod/magnetic_model/model.py,
        eoxmagmod/eoxmagmod/magnetic_model/coefficients.py
-/
import Verif.Model.FieldModel
import Verif.Model.ModelEval
import Mathlib.Order.WithBot

namespace Verif.Field

open Verif.ModelEval Verif.Arr

variable {K : Type}

/-- Times with both infinities, no NaN: the ends of the validity intervals. -/
abbrev Ext (K : Type) := WithBot (WithTop K)

/-- The time as a double. -/
def toX : Ext K → X K
  | ⊥ => .ninf
  | (⊤ : WithTop K) => .pinf
  | ((a : K) : WithTop K) => .fin a

mutual
/-- `get_coefficient_sets`, coefficients.py lines 308-313 (combined) and 461-467 (sparse); composed
coefficients do not have the method, which is the `none` here (`AttributeError` caught in
model.py lines 96-100). -/
def coefficientSets {T S : Type} : Tree T S → Option (List S)
  | .sparse _ _ s => some [s]
  | .composed _ => none
  | .combined items => coefficientSetsAll items

/-- The loop of lines 311-312. -/
def coefficientSetsAll {T S : Type} : List (Tree T S) → Option (List S)
  | [] => some []
  | i :: l => do
    let a ← coefficientSets i
    let b ← coefficientSetsAll l
    return a ++ b
end

variable [Field K] [LinearOrder K]

/-- `_decompose_coefficients`, model.py lines 79-84; `none` if a component has to be evaluated by the
default method, which is not modelled here (theorem `C75_components`: there are none). -/
def componentsOf (coefficients : Tree (Ext K) (Sparse K)) : Option (List (Component K)) :=
  (decompose coefficients).mapM (fun c => (coefficientSets c.o).map (fun l => ⟨toX c.s, toX c.e, l⟩))

/-- `SphericalHarmomicGeomagneticModel(coefficients).eval(...)`, model.py lines 75-77 and 122-157. -/
def evalCoefficients [FloorRing K] {St : Type} (env : Env K St) (coefficients : Tree (Ext K) (Sparse K))
    (time : NdArray (X K)) (loc : NdArray K) (ctIn ctOut : Int) (opt : Options K) :
    Option (Except Failure (List Nat × List (Option K))) :=
  (componentsOf coefficients).map (fun parts => evalModel env parts time loc ctIn ctOut opt)

end Verif.Field
