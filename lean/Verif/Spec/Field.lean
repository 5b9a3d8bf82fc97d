/-
Specification of the coefficients of a model at a time: of each sparse set the coefficients kept by
the degree limits, with the values of their series at the time, in the unit of the set.
-/
import Verif.Spec.Timed
import Verif.Model.FieldModel
import Mathlib.Order.WithBot

namespace Verif.Spec

open Verif.Field

variable {K : Type} [Field K] [LinearOrder K]

/-- The degrees asked for; negative limits mean no limit. -/
def Kept (opt : Options K) (e : Int × Int) : Bool :=
  decide ((opt.minDegree < 0 ∨ opt.minDegree ≤ e.1) ∧ (opt.maxDegree < 0 ∨ e.1 ≤ opt.maxDegree))

/-- The time of a set: decimal years or MJD2000. -/
def ownTime [FloorRing K] (s : Sparse K) (t : K) : K := if s.decimalYear then Time.mjd2kToDecimalYear t else t

/-- Order of the spline of a set. -/
def orderOf (s : Sparse K) : Int :=
  match s.td.kind with
  | .c0 => 1
  | .c1 => 2
  | .c1d1 => 0

/-- The indices of the coefficients asked for. -/
def keptIndices (opt : Options K) (sets : List (Sparse K)) : List (Int × Int) :=
  sets.flatMap (fun s => (s.td.entries.map Prod.fst).filter (Kept opt))

/-- The coefficients asked for and the conditions on their values at the time `t`. -/
def entriesAt [FloorRing K] (opt : Options K) (sets : List (Sparse K)) (t : K) : List ((Int × Int) × (K → Prop)) :=
  sets.flatMap (fun s => (s.td.entries.filter (fun e => Kept opt e.1)).map
    (fun e => (e.1, SeriesAt s.td.times e.2 (ownTime s t) (orderOf s))))

/-- A double which is not NaN on the line with both infinities. -/
def extended : X K → Option (WithBot (WithTop K))
  | .nan => none
  | .ninf => some ⊥
  | .fin a => some (a : WithTop K)
  | .pinf => some (⊤ : WithTop K)

/-- The time `t` is in the closed interval from `s` to `e`. -/
def Within (s e t : X K) : Prop :=
  ∃ a b c, extended s = some a ∧ extended e = some b ∧ extended t = some c ∧ a ≤ c ∧ c ≤ b

/-- The component whose values a model gives at a time: the first valid one for a single time, the
last valid one for arrays of times. -/
def ActiveAt (parts : List (Component K)) (scalar : Prop) (t : X K) (c : Component K) : Prop :=
  ∃ pre post, parts = pre ++ c :: post ∧ Within c.vs c.ve t ∧
    ((scalar ∧ ∀ d ∈ pre, ¬ Within d.vs d.ve t) ∨ (¬ scalar ∧ ∀ d ∈ post, ¬ Within d.vs d.ve t))

end Verif.Spec
