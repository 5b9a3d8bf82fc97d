/-
Model of the loaders from the text of the files to the coefficient objects of the models.
Source: eoxmagmod/eoxmagmod/magnetic_model/loader_shc.py, loader_wmm.py, loader_igrf.py,
        loader_emm.py, coefficients.py

A file is the list of its lines (opening and decoding of files are not modelled); `pf` is `float` of
a token.
-/
import Verif.Model.FieldTree
import Verif.Model.Parsers
import Verif.Model.Coefficients

namespace Verif.Field

open Verif.ModelEval Verif.Parsers Verif.Coeffs

variable {K : Type} [Field K] [LinearOrder K]

/-- `decimal_year_to_mjd2000` of a limit of the validity, coefficients.py lines 63-80: the
infinities are kept. -/
def yearToDay [FloorRing K] (y : Ext K) : Ext K := WithBot.map (WithTop.map Time.decimalYearToMjd2k) y

/-- A limit of the validity which is not NaN. -/
def ofX : X K → Option (Ext K)
  | .nan => none
  | .ninf => some ⊥
  | .fin a => some (a : WithTop K)
  | .pinf => some (⊤ : WithTop K)

/-- `load_coeff_shc`, loader_shc.py lines 93-130, with the options
`interpolate_in_decimal_years` (`years`) and `is_internal`; `n_idx.max()` of no coefficients
fails (coefficients.py line 352). -/
def loadCoeffShc [FloorRing K] (pf : List Char → Option (Ext K)) (years isInternal : Bool) (file : List Line) :
    Option (Tree (Ext K) (Sparse K)) := do
  let data ← parseShc pf file
  let td ← loadShc Time.decimalYearToMjd2kX years (data.t.map toX) data.header.splineOrder data.nm
    (data.gh.map (fun r => r.map toX))
  if td.entries.isEmpty then none
  else
    return .sparse (yearToDay data.validityStart) (yearToDay data.validityEnd)
      ⟨td, years && decide (data.t.length ≠ 1), isInternal⟩

/-- `SparseSHCoefficientsTimeDependentDecimalYear(nm, gh, t)`, coefficients.py lines 513-537 and
412-459: the validity is from the first to the last time, converted in lines 535-537. -/
def yearsCoeff [FloorRing K] (nm : List (Int × Int)) (gh : List (List K)) (t : List K) :
    Option (Tree (Ext K) (Sparse K)) := do
  let td ← mkTimeDep nm (gh.map (fun r => r.map .fin)) (t.map .fin) 2
  let s ← td.times.head? >>= ofX
  let e ← td.times.getLast? >>= ofX
  if td.entries.isEmpty then none
  else return .sparse (yearToDay s) (yearToDay e) ⟨td, true, true⟩

/-- `SparseSHCoefficientsConstant(nm, gh)`, coefficients.py lines 482-510. -/
def constantCoeff (nm : List (Int × Int)) (c : List K) : Option (Tree (Ext K) (Sparse K)) := do
  let td ← mkConstant nm (c.map .fin)
  if td.entries.isEmpty then none
  else return .sparse ⊥ ⊤ ⟨td, false, true⟩

mutual
/-- What the constructors of composed and combined coefficients see of their members; `none` if
the constructor of a member fails. -/
def infoOf : Tree (Ext K) (Sparse K) → Option (Info (Ext K))
  | .sparse vs ve s => do
    let d ← (s.td.entries.map (fun e => e.1.1)).max?
    let md ← (s.td.entries.map (fun e => e.1.1)).min?
    return ⟨vs, ve, d, md, s.isInternal⟩
  | .composed items => infosOf items >>= composedInit
  | .combined items => infosOf items >>= combinedInit

/-- The same for each member. -/
def infosOf : List (Tree (Ext K) (Sparse K)) → Option (List (Info (Ext K)))
  | [] => some []
  | i :: l => do
    let a ← infoOf i
    let b ← infosOf l
    return a :: b
end

/-- `ComposedSHCoefficients(*items)`, coefficients.py lines 128-182, for members which are not
composed themselves if there is only one of them. -/
def newComposed (items : List (Tree (Ext K) (Sparse K))) : Option (Tree (Ext K) (Sparse K)) :=
  match items with
  | [i] => some i
  | items => do
    let infos ← infosOf items
    let _ ← composedInit infos
    return .composed items

/-- `CombinedSHCoefficients(*items)`, coefficients.py lines 256-298, for members which are not
combined themselves if there is only one of them. -/
def newCombined (items : List (Tree (Ext K) (Sparse K))) : Option (Tree (Ext K) (Sparse K)) :=
  match items with
  | [i] => some i
  | items => do
    let infos ← infosOf items
    let _ ← combinedInit infos
    return .combined items

/-- `load_coeff_shc_composed`, loader_shc.py lines 78-84, of paths. -/
def loadShcComposed [FloorRing K] (pf : List Char → Option (Ext K)) (years isInternal : Bool) (files : List (List Line)) :
    Option (Tree (Ext K) (Sparse K)) := do
  let items ← files.mapM (loadCoeffShc pf years isInternal)
  newComposed items

/-- `load_coeff_shc_combined`, loader_shc.py lines 69-75, of paths. -/
def loadShcCombined [FloorRing K] (pf : List Char → Option (Ext K)) (years isInternal : Bool) (files : List (List Line)) :
    Option (Tree (Ext K) (Sparse K)) := do
  let items ← files.mapM (loadCoeffShc pf years isInternal)
  newCombined items

/-- `load_coeff_wmm`, loader_wmm.py lines 41-48. -/
def loadCoeffWmm [FloorRing K] (pf : List Char → Option K) (file : List Line) : Option (Tree (Ext K) (Sparse K)) := do
  let data ← parseWmm pf file
  yearsCoeff data.nm data.gh data.t

/-- `load_coeff_igrf`, loader_igrf.py lines 48-55. -/
def loadCoeffIgrf [FloorRing K] (pf : List Char → Option K) (file : List Line) : Option (Tree (Ext K) (Sparse K)) := do
  let data ← parseIgrf pf file
  yearsCoeff data.nm data.gh data.t

/-- `load_coeff_emm`, loader_emm.py lines 47-64. -/
def loadCoeffEmm [FloorRing K] (pf : List Char → Option K) (fileStatic fileSecvar : List Line) :
    Option (Tree (Ext K) (Sparse K)) := do
  let st ← parseEmm pf fileStatic
  let sv ← parseEmm pf fileSecvar
  let data ← combineEmm st sv
  let a ← yearsCoeff (data.varying.map Prod.fst) (data.varying.map Prod.snd) data.t
  let b ← constantCoeff (data.constant.map Prod.fst) (data.constant.map Prod.snd)
  newCombined [a, b]

end Verif.Field
