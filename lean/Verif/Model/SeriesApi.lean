/-
Model of the array functions `legendre`, `loncossin` and `relradpow`.
Source: eoxmagmod/eoxmagmod/pymm_legendre.h, pymm_loncossin.h, pymm_relradpow.h

The functions filling a row get the items of the row only: an access outside of the row
counts as a memory violation even where the neighbouring row is hit.
-/
import Verif.Model.ArrayApi
import Verif.Model.RadPow
import Verif.Model.Fourier
import Verif.Model.Legendre

namespace Verif.Arr

open Verif.Buf Verif.Geo

variable {K : Type} [Field K]

/-- The items of the leaf of a new array with the content `buf`. -/
def readLeaf (buf : List K) (a : ArrD) : Option (List K) := readN (rdI buf) a.data a.dim.prod

/-- `_loncossin` and `_relradpow`, pymm_loncossin.h lines 129-157, pymm_relradpow.h lines
155-185: each number is given to `fill` with the items of its row. -/
def fillRec (fill : K → List K → Option (List K)) (mem : Int → Option K) :
    List Nat → List ArrD → List K → Option (List K) :=
  walk [none, none] 0 (fun arrs buf => match arrs with
    | [x, out] => do
      let v ← mem x.data
      let old ← readLeaf buf out
      let new ← fill v old
      wrList buf out.data new
    | _ => none)

/-- A new array of the caller. -/
def newArray {A : Type} (dims : List Nat) (buf : List A) : NdArray A := ⟨rdI buf, contiguous dims⟩

/-- `relradpow`, pymm_relradpow.h lines 69-188. -/
def relradpowArr [LinearOrder K] (junk : Nat → List K) (rad : NdArray K) (degree : Int) (ref : K)
    (isInternal : Bool) : Except Err (NdArray K) :=
  if degree < 0 then .error .valueError
  else if ref ≤ 0 then .error .valueError
  else do
    let dims := rad.arr.dim ++ [degree.toNat + 1]
    let r ← orMemory (fillRec
      (fun v b => (if isInternal then RadPow.internal else RadPow.external) b degree.toNat (v / ref))
      rad.mem rad.arr.dim [rad.arr, contiguous dims] (junk dims.prod))
    return newArray dims r

/-- `double (*)[2]`: the items as pairs. -/
def pairUp : List K → Option (List (K × K))
  | [] => some []
  | a :: b :: l => do
    let r ← pairUp l
    return (a, b) :: r
  | [_] => none

/-- The pairs as items. -/
def flatPairs (l : List (K × K)) : List K := l.flatMap (fun p => [p.1, p.2])

/-- `loncossin`, pymm_loncossin.h lines 55-122. -/
def loncossinArr (L : Libm K) (junk : Nat → List K) (lon : NdArray K) (degree : Int) (fast : Bool) :
    Except Err (NdArray K) :=
  if degree < 0 then .error .valueError
  else do
    let dims := lon.arr.dim ++ [degree.toNat + 1, 2]
    let r ← orMemory (fillRec (fun v b => do
        let ps ← pairUp b
        let r ← (if fast then Fourier.fsCosSin L.cos L.sin else Fourier.fsCosSinRef L.cos L.sin) ps
          degree.toNat (v * dg2rad L)
        return flatPairs r)
      lon.mem lon.arr.dim [lon.arr, contiguous dims] (junk dims.prod))
    return newArray dims r

/-- `_legendre`, pymm_legendre.h lines 163-201. -/
def legendreRec (L : Libm K) (small : K → Bool) (scale : K) (degree : Nat) (mem : Int → Option K) :
    List Nat → List ArrD → List K × List K → Option (List K × List K) :=
  walk [none, none, none] 0 (fun arrs s => match arrs with
    | [lat, p, dp] => do
      let v ← mem lat.data
      let op ← readLeaf s.1 p
      let od ← readLeaf s.2 dp
      let o ← Legendre.legendre L.sin L.sqrt small scale ⟨op, od⟩ degree (v * dg2rad L)
      let bp ← wrList s.1 p.data o.lp
      let bd ← wrList s.2 dp.data o.ldp
      return (bp, bd)
    | _ => none)

/-- `legendre`, pymm_legendre.h lines 65-157; the two new arrays have any content. -/
def legendreArr (L : Libm K) (small : K → Bool) (scale : K) (junk junk' : Nat → List K) (lat : NdArray K)
    (degree : Int) : Except Err (NdArray K × NdArray K) :=
  if degree < 0 then .error .valueError
  else do
    let dims := lat.arr.dim ++ [(degree.toNat + 1) * (degree.toNat + 2) / 2]
    let r ← orMemory (legendreRec L small scale degree.toNat lat.mem lat.arr.dim
      [lat.arr, contiguous dims, contiguous dims] (junk dims.prod, junk' dims.prod))
    return (newArray dims r.1, newArray dims r.2)

end Verif.Arr
