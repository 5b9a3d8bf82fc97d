/-
Model of the MIO coefficients evaluated for given times.
Source: eoxmagmod/eoxmagmod/magnetic_model/coefficients_mio.py, coefficients.py, util.py
-/
import Verif.Model.MioField

namespace Verif.MioField

open Verif.Buf Verif.Geo Verif.Arr Verif.Coeffs Verif.ModelEval Verif.Field

variable {K : Type} [Field K] [LinearOrder K] [FloorRing K]

/-- The array `coeff` of a subset of the coefficients: rows of `ns` by `np` pairs, in C order. -/
def coeffArray (ns np : Nat) (sub : List ((Int × Int) × List (K × K))) : NdArray K :=
  newArray [sub.length, ns, np, 2] (sub.flatMap (fun e => flatPairs e.2))

/-- `IndexError` for `none`. -/
def orIndexError {A : Type} : Option A → Except Failure A
  | some a => .ok a
  | none => .error (.shape .indexError)

/-- `SparseSHCoefficientsMIO.__call__`, coefficients_mio.py lines 79-91, with `subset_degree` (coefficients.py lines 369-402)
and the default conversion of the times; the table of each time is filled as in `fillTable`.  The times are finite. -/
def callMio {St : Type} (L : Libm K) (env : MioEnv K St) (c : MioCoef K) (time : NdArray (X K)) (mt : NdArray K)
    (minDegree maxDegree : Int) : Except Failure (NdArray K × Int) := do
  let degree := (subsetDegree c.entries minDegree maxDegree).1
  let sub := (subsetDegree c.entries minDegree maxDegree).2
  let yf ← called (mjd2000ToYearFractionArr env.year env.junkX time)
  let v ← called (fourier2dArr L.cos L.sin env.junk env.junk2 ⟨finMem yf.mem, yf.arr⟩ mt (coeffArray c.ns c.np sub) c.smin
    c.pmin (2 * L.pi) (2 * L.pi / 24))
  let xs ← called (itemsNd v)
  let tables ← orIndexError ((rowsOf time.arr.dim.prod sub.length xs).mapM (fun r =>
    fillTable degree ((sub.map Prod.fst).zip r)))
  return (newArray (time.arr.dim ++ [(coeffSize degree).toNat, 2]) (tables.flatMap flatPairs), degree)

end Verif.MioField
