/-
Model of the composed models as objects which refer to one another and are changed by `push`.
Source: eoxmagmod/eoxmagmod/magnetic_model/model_composed.py,
        eoxmagmod/eoxmagmod/magnetic_model/model.py, model_mio.py (`parameters`)

Objects are kept in a list, a reference is a position in it.  The models which are not composed do not change after their
construction; their attribute `validity` is given with them.
-/
import Verif.Model.ComposedField

namespace Verif.Objects

open Verif.Buf Verif.Geo Verif.Arr Verif.Coeffs Verif.ModelEval Verif.Field Verif.MioField Verif.ComposedField
open Verif.ComposedModel (validityOverlap)

variable {K T : Type}

/-- `Component`, model_composed.py line 39; the model is a reference. -/
structure Component (K : Type) where
  model : Nat
  scale : Scale K
  params : Args K

/-- The models: one of the kinds which are not composed with its validity, or a `ComposedGeomagneticModel` with
`_parameters`, `_components`, `_validity`, model_composed.py lines 57-62. -/
inductive Obj (K T : Type) where
  | base (m : Member K) (validity : T × T)
  | composed (parameters : List String) (components : List (Component K)) (validity : T × T)

/-- `parameters` of the classes: model.py line 51, model_mio.py lines 48 and 136. -/
def baseParameters : Member K → List String
  | .mio _ => ["time", "location", "f107", "subsolar_point"]
  | .primary _ _ _ _ => ["time", "location", "f107", "subsolar_point"]
  | _ => ["time", "location"]

/-- Attribute `parameters`, model_composed.py lines 74-77 for composed models; the order of the set is not modelled. -/
def Obj.parameters : Obj K T → List String
  | .base m _ => baseParameters m
  | .composed ps _ _ => ps

/-- Attribute `validity`, model_composed.py lines 70-72 for composed models. -/
def Obj.validity : Obj K T → T × T
  | .base _ v => v
  | .composed _ _ v => v

/-- `set.update` -/
def setUpdate (s l : List String) : List String := l.foldl (fun s x => if x ∈ s then s else s ++ [x]) s

/-- Errors of the construction: `AttributeError` for `push` of other models, no such object (cannot happen in Python). -/
inductive ObjErr where
  | attributeError
  | noObject

section
variable [LinearOrder T] [BoundedOrder T]

/-- `push`, model_composed.py lines 64-68. -/
def push (h : List (Obj K T)) (target model : Nat) (scale : Scale K) (params : Args K) : Except ObjErr (List (Obj K T)) :=
  match h[target]?, h[model]? with
  | some (.composed ps cs v), some m =>
    .ok (h.set target (.composed (setUpdate ps m.parameters) (cs ++ [⟨model, scale, params⟩]) (validityOverlap v m.validity)))
  | some (.base _ _), some _ => .error .attributeError
  | _, _ => .error .noObject

/-- The loop of the constructor, model_composed.py lines 61-62: `push` with `scale=1.0`, no parameters. -/
def pushAll [One K] (target : Nat) : List Nat → List (Obj K T) → Except ObjErr (List (Obj K T))
  | [], h => .ok h
  | m :: rest, h => do
    let h ← push h target m (.scalar 1) {}
    pushAll target rest h

/-- `ComposedGeomagneticModel(*models)`, model_composed.py lines 57-62; the models exist before. -/
def create [One K] (h : List (Obj K T)) (models : List Nat) : Except ObjErr (List (Obj K T)) :=
  if models.all (fun m => m < h.length) then
    pushAll h.length models (h ++ [.composed ["time", "location"] [] (⊥, ⊤)])
  else .error .noObject
end

/-! ### Evaluation -/

/-- Errors of `eval`: exceptions of the evaluation, `RecursionError`, no such object (cannot happen in Python). -/
inductive EvalErr where
  | failed (e : Failure)
  | recursion
  | noObject

/-- Exceptions of the evaluation. -/
def failing {A : Type} : Except Failure A → Except EvalErr A
  | .ok a => .ok a
  | .error e => .error (.failed e)

/-- The method `eval` of the referenced models. -/
abbrev EvalRef (K : Type) := Nat → NdArray (X K) → NdArray K → Int → Int → Scale K → Args K → Except EvalErr (Items K)

section
variable [Field K]

/-- The loop over the other components, model_composed.py lines 100-103. -/
def evalOthers (ev : EvalRef K) : List (Component K) → NdArray (X K) → NdArray K → Args K → Items K → Except EvalErr (Items K)
  | [], _, _, _, result => .ok result
  | c :: rest, time, coordSph, args, result => do
    let r ← ev c.model time coordSph 1 1 c.scale (args.update c.params)
    let sum ← failing (addArrays result r)
    evalOthers ev rest time coordSph args sum

/-- The components, model_composed.py lines 95-109. -/
def evalComponents (ev : EvalRef K) : List (Component K) → NdArray (X K) → NdArray K → NdArray K → Args K →
    Except EvalErr (Items K)
  | [], time, loc, _, _ => failing (emptyResult time loc)
  | c :: rest, time, _, coordSph, args => do
    let first ← ev c.model time coordSph 1 1 c.scale (args.update c.params)
    evalOthers ev rest time coordSph args first

variable [LinearOrder K] [FloorRing K]

/-- `eval` of an object, model_composed.py lines 79-127 for the composed models, with the number of calls of `eval` allowed
within one another (`sys.getrecursionlimit`; other calls are not counted). -/
def evalObj {St : Type} (L : Libm K) (env : MioEnv K St) (h : List (Obj K T)) : Nat → EvalRef K
  | 0, _, _, _, _, _, _, _ => .error .recursion
  | calls + 1, i, time, loc, ctIn, ctOut, scale, args =>
    match h[i]? with
    | none => .error .noObject
    | some (.base m _) => failing (evalMember L env m time loc ctIn ctOut scale args)
    | some (.composed _ cs _) => do
      let coordSph ← failing (called (convertNd L env.junk loc ctIn 1))
      let result ← evalComponents (evalObj L env h calls) cs time loc coordSph args
      let result ← failing (called (rotateResult L env.junk ctIn ctOut loc coordSph result))
      failing (called (scaleResult scale result))
end

end Verif.Objects
