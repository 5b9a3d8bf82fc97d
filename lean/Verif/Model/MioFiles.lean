/-
Model of the Swarm MIO models built from the texts of the files: loader_mio.py with the parser (Model/Parsers.lean) and the
objects of Model/MioField.lean.
Source: eoxmagmod/eoxmagmod/magnetic_model/loader_mio.py, coefficients_mio.py, model_mio.py
-/
import Verif.Model.MioField
import Verif.Model.Parsers

namespace Verif.MioFiles

open Verif.Parsers Verif.MioField

variable {K : Type} [Field K] [LinearOrder K] [FloorRing K]

/-- The last axis given by `coeff.reshape((..., 2))`, parser_mio.py lines 58-63: consecutive items in pairs (the number of
items is even, checked in `parseMio`). -/
def inPairs {F : Type} : List F → List (F × F)
  | a :: b :: l => (a, b) :: inPairs l
  | _ => []

/-- `indices[..., 0], indices[..., 1]` of one row, coefficients.py line 351; `none` is `IndexError`. -/
def pairOf : List Int → Option (Int × Int)
  | [n, m] => some (n, m)
  | _ => none

/-- `n_idx.max()`; `none` is the `ValueError` for no items. -/
def maxOf : List Int → Option Int
  | [] => none
  | a :: l => some (l.foldl max a)

/-- `n_idx.min()`. -/
def minOf : List Int → Option Int
  | [] => none
  | a :: l => some (l.foldl min a)

/-- `SparseSHCoefficientsMIO.__init__`, coefficients_mio.py lines 69-77, with lines 349-359 of coefficients.py and the
default validity, lines 59-80; `none` is an exception.  Unequal numbers of index pairs and rows, which a file with an odd
number of rows can give, are refused only when evaluated: here at once. -/
def newMioCoef (nm : List (List Int)) (rows : List (List (K × K))) (pmin pmax smin smax : Int) (isInternal : Bool) :
    Option (MioCoef K) := do
  let pairs ← nm.mapM pairOf
  let _ ← maxOf (pairs.map Prod.fst)
  if pmin > pmax ∨ smin > smax then none
  else if pairs.length ≠ rows.length then none
  else return ⟨pairs.zip rows, (smax - smin + 1).toNat, (pmax - pmin + 1).toNat, pmin, smin, .ninf, .pinf, isInternal⟩

/-- `load_coeff_swarm_mio_internal`, loader_mio.py lines 86-97. -/
def loadCoeffInternal (pf : List Char → Option K) (file : List Line) : Option (MioCoef K × MioData K) := do
  let d ← parseMio pf file
  let c ← newMioCoef d.nm (d.gh.map inPairs) d.header.pmin d.header.pmax d.header.smin d.header.smax true
  return (c, d)

/-- `_get_coeff_swarm_mio_external`, loader_mio.py lines 110-126; `data["degree_max"]` is set in parser_mio.py line 43. -/
def externalCoef (d : MioData K) (above : Bool) : Option (MioCoef K) := do
  let rows := d.qs.map inPairs
  if above then do
    let pairs ← d.nm.mapM pairOf
    let degree ← maxOf (pairs.map Prod.fst)
    if degree < 0 then none -- no items to index
    else do
      let rows ← Mio.convertExternal degree.toNat pairs rows d.header.height
      newMioCoef d.nm rows d.header.pmin d.header.pmax d.header.smin d.header.smax true
  else
    newMioCoef d.nm rows d.header.pmin d.header.pmax d.header.smin d.header.smax false

/-- `load_coeff_swarm_mio_external`, loader_mio.py lines 100-107. -/
def loadCoeffExternal (pf : List Char → Option K) (file : List Line) (above : Bool) : Option (MioCoef K × MioData K) := do
  let d ← parseMio pf file
  let c ← externalCoef d above
  return (c, d)

/-- `_create_mio_model`, loader_mio.py lines 79-83. -/
def createMio (c : MioCoef K) (d : MioData K) : MioModel K := ⟨c, d.header.latNGP, d.header.lonNGP, d.header.wolfRatio⟩

/-- `load_model_swarm_mio_internal`, loader_mio.py lines 45-49. -/
def loadModelInternal (pf : List Char → Option K) (file : List Line) : Option (MioModel K) := do
  let r ← loadCoeffInternal pf file
  return createMio r.1 r.2

/-- `MIOPrimaryGeomagneticModel`, model_mio.py lines 66-71. -/
structure Primary (K : Type) where
  below : MioModel K
  above : MioModel K
  height : K
  radius : K

/-- `_create_composed_mio_model`, loader_mio.py lines 70-76, with the default radius of model_mio.py line 67. -/
def createComposed (below above : MioCoef K) (d : MioData K) : Primary K :=
  ⟨createMio below d, createMio above d, d.header.height, Mio.earthRadius⟩

/-- `load_model_swarm_mio_external` with `above_ionosphere` None, loader_mio.py lines 52-63. -/
def loadModelExternal (pf : List Char → Option K) (file : List Line) : Option (Primary K) := do
  let d ← parseMio pf file
  let below ← externalCoef d false
  let above ← externalCoef d true
  return createComposed below above d

/-- `load_model_swarm_mio_external` with `above_ionosphere` given, loader_mio.py lines 52-56 and 65-67. -/
def loadModelLayer (pf : List Char → Option K) (file : List Line) (above : Bool) : Option (MioModel K) := do
  let d ← parseMio pf file
  let c ← externalCoef d above
  return createMio c d

/-- `degree` of the coefficients, coefficients.py line 352. -/
def coefDegree (c : MioCoef K) : Option Int := maxOf (c.entries.map (fun e => e.1.1))

/-- `min_degree` of the coefficients, coefficients.py line 353. -/
def coefMinDegree (c : MioCoef K) : Option Int := minOf (c.entries.map (fun e => e.1.1))

/-- `MIOPrimaryGeomagneticModel.degree`, model_mio.py lines 50-56 (`degree` of the members: the one of the coefficients). -/
def Primary.degree (p : Primary K) : Option Int := do
  return max (← coefDegree p.below.coef) (← coefDegree p.above.coef)

/-- `MIOPrimaryGeomagneticModel.min_degree`, model_mio.py lines 58-64: the maximum. -/
def Primary.minDegree (p : Primary K) : Option Int := do
  return max (← coefMinDegree p.below.coef) (← coefMinDegree p.above.coef)

/-- Python `max` of two floats. -/
def pyMax (a b : X K) : X K := if X.lt a b then b else a

/-- Python `min` of two floats. -/
def pyMin (a b : X K) : X K := if X.lt b a then b else a

/-- `MIOPrimaryGeomagneticModel.validity`, model_mio.py lines 113-117. -/
def Primary.validity (p : Primary K) : X K × X K :=
  (pyMax p.above.coef.vs p.below.coef.vs, pyMin p.above.coef.ve p.below.coef.ve)

end Verif.MioFiles
