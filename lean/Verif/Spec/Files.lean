/-
Specification of what the files of a model say: coefficients with their values at any time.
-/
import Verif.Spec.Field
import Verif.Spec.Active
import Verif.Model.FieldTree

namespace Verif.Spec

open Verif.Field Verif.ModelEval

variable {K : Type} [Field K] [LinearOrder K]

/-- What a file says: validity in days since 2000, the kind of sources, whether the values are
interpolated in decimal years or do not depend on the time, and for each degree and order
which value (last argument) the coefficient has at which time (days since 2000). -/
structure Content (K : Type) where
  vs : Ext K
  ve : Ext K
  internal : Bool
  years : Bool
  constant : Bool
  entries : List ((Int × Int) × (K → K → Prop))

/-- The days since 2000 of a decimal year which may be infinite. -/
def dayOf [FloorRing K] (y : Ext K) : Ext K := WithBot.map (WithTop.map Time.decimalYearToMjd2k) y

/-- Values between nodes given in decimal years: on the lines through the neighbouring nodes, in
decimal years or in days. -/
def seriesContent [FloorRing K] (vs ve : Ext K) (internal years : Bool) (ts : List K) (rows : List ((Int × Int) × List K)) :
    Content K :=
  ⟨dayOf vs, dayOf ve, internal, years, false, rows.map (fun r => (r.1, fun t v =>
    if years then SplineAt ts r.2 (Time.mjd2kToDecimalYear t) 2 v
    else SplineAt (ts.map Time.decimalYearToMjd2k) r.2 t 2 v))⟩

/-- Values which do not depend on the time. -/
def constantContent [FloorRing K] (vs ve : Ext K) (internal : Bool) (rows : List ((Int × Int) × K)) : Content K :=
  ⟨dayOf vs, dayOf ve, internal, false, true, rows.map (fun r => (r.1, fun _ v => v = r.2))⟩

/-- Values changing at a constant rate per year. -/
def secularContent [FloorRing K] (epoch : K) (rows : List ((Int × Int) × K × K)) : Content K :=
  ⟨dayOf ((epoch : WithTop K) : Ext K), dayOf (((epoch + 5 : K) : WithTop K) : Ext K), true, true, false,
    rows.map (fun r => (r.1, fun t v => v = r.2.1 + r.2.2 * (Time.mjd2kToDecimalYear t - epoch)))⟩

/-- The degrees and orders asked for. -/
def keptOf (opt : Options K) (cs : List (Content K)) : List (Int × Int) :=
  cs.flatMap (fun c => (c.entries.map Prod.fst).filter (Kept opt))

/-- The coefficients asked for with the conditions on their values at the time `t`. -/
def valuesAt (opt : Options K) (cs : List (Content K)) (t : K) : List ((Int × Int) × (K → Prop)) :=
  cs.flatMap (fun c => (c.entries.filter (fun e => Kept opt e.1)).map (fun e => (e.1, e.2 t)))

/-- A file of coefficients as an object without members. -/
def leafOf (c : Content K) : Tree (Ext K) (Content K) := .sparse c.vs c.ve c

/-- Composition of files: the first one valid counts. -/
def composedOf : List (Content K) → Tree (Ext K) (Content K)
  | [c] => leafOf c
  | cs => .composed (cs.map leafOf)

/-- Combination of files: all of them count. -/
def combinedOf : List (Content K) → Tree (Ext K) (Content K)
  | [c] => leafOf c
  | cs => .combined (cs.map leafOf)

section same
variable {T S S' : Type}

mutual
/-- Objects of the same structure and validities with related sparse sets. -/
def SameTree (R : S → S' → Prop) : Tree T S → Tree T S' → Prop
  | .sparse a b s, .sparse a' b' s' => a = a' ∧ b = b' ∧ R s s'
  | .composed l, .composed l' => SameTrees R l l'
  | .combined l, .combined l' => SameTrees R l l'
  | _, _ => False

/-- The same for the members. -/
def SameTrees (R : S → S' → Prop) : List (Tree T S) → List (Tree T S') → Prop
  | [], [] => True
  | i :: l, i' :: l' => SameTree R i i' ∧ SameTrees R l l'
  | _, _ => False
end

end same

end Verif.Spec
