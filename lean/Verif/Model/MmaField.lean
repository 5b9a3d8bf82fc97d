/-
Model of the Swarm MMA models as objects of coefficients: loader_mma.py with the classes of
coefficients.py.
Source: eoxmagmod/eoxmagmod/magnetic_model/loader_mma.py, coefficients.py
-/
import Verif.Model.Mma
import Verif.Model.Files
import Verif.Model.DipoleModel

namespace Verif.Field

open Verif.Arr Verif.Coeffs Verif.ModelEval Verif.Mma Verif.Parsers Verif.Geo

variable {K : Type} [Field K] [LinearOrder K]

/-- The object of `SparseSHCoefficientsTimeDependent(nm, coeff, t, is_internal=...)`, coefficients.py
lines 412-459: nodes in days, validity from the first to the last time. -/
def daysCoeff (l : Loaded K) : Option (Tree (Ext K) (Sparse K)) := do
  let s ← ofX l.validity.1
  let e ← ofX l.validity.2
  if l.td.entries.isEmpty then none
  else return .sparse s e ⟨l.td, false, l.isInternal⟩

/-- `load_coeff_swarm_mma_2f_geo_internal`, `..._geo_external`, `..._sm_internal`, `..._sm_external`,
loader_mma.py lines 141-174 and 190-195; `frame` is "geo" or "sm". -/
def loadMma2F (frame : String) (internal : Bool) (files : List (Cdf K)) : Option (Tree (Ext K) (Sparse K)) := do
  let item ← loadSingle files (read2F (if internal then "gh" else "qs") frame) internal
  daysCoeff item

/-- `load_coeff_swarm_mma_2c_internal`, `..._external`, loader_mma.py lines 123-138 and 177-187. -/
def loadMma2C (internal : Bool) (files : List (Cdf K)) : Option (Tree (Ext K) (Sparse K)) := do
  let items ← loadMulti files (read2CBoth (if internal then "gh" else "qs")) internal
  let items ← items.mapM daysCoeff
  newCombined items

/-- `load_model_swarm_mma_2c_internal`, `..._external`, loader_mma.py lines 61-82: the coefficients and the latitude and
longitude of the pole of `DipoleSphericalHarmomicGeomagneticModel`, for the given or the default pole. -/
def modelMma2C (internal : Bool) (latNgp lonNgp : Option K) (files : List (Cdf K)) :
    Option (Tree (Ext K) (Sparse K) × K × K) := do
  let tree ← loadMma2C internal files
  return (tree, latNgp.getD (mma2cPole (K := K)).1, lonNgp.getD (mma2cPole (K := K)).2)

end Verif.Field
