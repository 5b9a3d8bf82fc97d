/-
Model of the reading and loading of the Swarm MMA products.
Source: eoxmagmod/eoxmagmod/magnetic_model/parser_mma.py, loader_mma.py

A CDF file is a dictionary of variables; the reading of the CDF format (`spacepy.pycdf`) is
not modelled.  `none` stands for any exception.
-/
import Verif.Model.Parsers

namespace Verif.Mma

open Verif.Parsers Verif.Coeffs

/-- Array of the degrees and orders: two or three dimensions. -/
inductive NmArr where
  | two (rows : List (List Int))
  | three (records : List (List (List Int)))

/-- Variables of an open CDF file by their names.  `time`: the CDF type and the first record
of a raw variable; `nm`: all values; `coeff`: the number of columns and the rows (one for
each time) of the first record. -/
structure Cdf (K : Type) where
  time : String → Option (Int × List K)
  nm : String → Option NmArr
  coeff : String → Option (Nat × List (List K))

variable {K : Type} [Field K]

/-- `CDF_EPOCH_TYPE`, parser_mma.py line 41: the constant `CDF_EPOCH` of the CDF library. -/
def cdfEpochType : Int := 31

/-- `_cdf_rawtime_to_mjd2000`, parser_mma.py lines 136-141 (constants lines 42-43); `none`
is `TypeError`. -/
def rawToMjd (raw : List K) (typ : Int) : Option (List K) :=
  if typ = cdfEpochType then some (raw.map (fun r => (r - 63113904000000) * (1 / 86400000)))
  else none

/-- `nm_idx` of parser_mma.py lines 124-126.  The other arrays of three dimensions are not
modelled further (`none`): they have no two columns of indices. -/
def nmRows : NmArr → Option (List (List Int))
  | .two rows => some rows
  | .three [rows] => some rows
  | .three _ => none

/-- Column 0 of `nm_idx`. -/
def column0 (rows : List (List Int)) : Option (List Int) := rows.mapM (fun r => r[0]?)

/-- `.transpose()` of an array of `c` columns. -/
def transpose (c : Nat) (rows : List (List K)) : Option (List (List K)) :=
  (List.range c).mapM (fun i => rows.mapM (fun r => r[i]?))

/-- `read_swarm_mma_coefficients`, parser_mma.py lines 117-133. -/
def readSet (cdf : Cdf K) (timeVar nmVar coeffVar : String) : Option (MmaSet K) := do
  let time ← cdf.time timeVar
  let nm ← (← cdf.nm nmVar) |> nmRows
  let n ← column0 nm
  let pairs ← toPairs nm
  let dmin ← n.min?
  let dmax ← n.max?
  let t ← rawToMjd time.2 time.1
  let c ← cdf.coeff coeffVar
  let gh ← transpose c.1 c.2
  return ⟨dmin, dmax, pairs, t, gh⟩

/-- `read_swarm_mma_2f_coefficients`, parser_mma.py lines 94-102. -/
def read2F (var frame : String) (cdf : Cdf K) : Option (MmaSet K) :=
  readSet cdf ("t_" ++ var) ("nm_" ++ var) (var ++ "_" ++ frame)

/-- `read_swarm_mma_2c_coefficients`, parser_mma.py lines 105-114. -/
def read2C (var subset : String) (cdf : Cdf K) : Option (MmaSet K) :=
  let source := var ++ "_" ++ subset
  readSet cdf ("t_" ++ source) ("nm_" ++ source) source

/-- `read_swarm_mma_2c_internal`, `read_swarm_mma_2c_external`, parser_mma.py lines 74-91,
with the variable "gh" or "qs". -/
def read2CBoth (var : String) (cdf : Cdf K) : Option (List (MmaSet K)) := do
  let a ← read2C var "1" cdf
  let b ← read2C var "2" cdf
  return [a, b]

section
variable [LinearOrder K]

/-- Loaded coefficients with the flag `is_internal` and the validity (the first and the last
time, coefficients.py lines 445-446). -/
structure Loaded (K : Type) where
  isInternal : Bool
  validity : X K × X K
  td : TimeDep K

/-- `SparseSHCoefficientsTimeDependent(nm, coeff, t, is_internal=...)`. -/
def construct (isInternal : Bool) (m : MmaSet K) : Option (Loaded K) := do
  let td ← mkTimeDep m.nm (m.gh.map (·.map X.fin)) (m.t.map X.fin) 2
  let a ← td.times.head?
  let b ← td.times.getLast?
  return ⟨isInternal, (a, b), td⟩

/-- `_load_coeff_mma_single_set`, loader_mma.py lines 190-195. -/
def loadSingle (files : List (Cdf K)) (reader : Cdf K → Option (MmaSet K)) (isInternal : Bool) :
    Option (Loaded K) := do
  let data ← files.mapM reader
  construct isInternal (← mmaMerge data)

/-- `zip(*data)`. -/
def zipStar {A : Type} (data : List (List A)) : List (List A) :=
  match (data.map List.length).min? with
  | none => []
  | some n => (List.range n).map (fun i => data.filterMap (fun r => r[i]?))

/-- `_load_coeff_mma_multi_set`, loader_mma.py lines 177-187: the items of the combined
coefficients. -/
def loadMulti (files : List (Cdf K)) (reader : Cdf K → Option (List (MmaSet K))) (isInternal : Bool) :
    Option (List (Loaded K)) := do
  let data ← files.mapM reader
  let merged ← (zipStar data).mapM mmaMerge
  let items ← merged.mapM (construct isInternal)
  if items.isEmpty then none else return items

/-- Geomagnetic pole of the 2C models, loader_mma.py lines 61-62. -/
def mma2cPole : K × K := (90 - 992 / 100, 28778 / 100 - 360)

/-- A model: its coefficients and the pole of its frame (`none`: geographic). -/
structure MmaModel (K : Type) where
  items : List (Loaded K)
  pole : Option (K × K)

/-- `load_model_swarm_mma_2c_internal`, `..._external` with the default pole,
loader_mma.py lines 65-82, 123-138. -/
def model2C (internal : Bool) (files : List (Cdf K)) : Option (MmaModel K) := do
  let items ← loadMulti files (read2CBoth (if internal then "gh" else "qs")) internal
  return ⟨items, some mma2cPole⟩

/-- `load_model_swarm_mma_2f_geo_internal`, `..._geo_external`, `..._sm_internal`,
`..._sm_external`, loader_mma.py lines 85-120, 141-174; `frame` is "geo" or "sm". -/
def model2F (frame : String) (internal : Bool) (files : List (Cdf K)) : Option (MmaModel K) := do
  let item ← loadSingle files (read2F (if internal then "gh" else "qs") frame) internal
  return ⟨[item], none⟩

end

end Verif.Mma
