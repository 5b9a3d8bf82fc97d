/-
Model of the strided arrays and of the recursion over their leading dimensions.
Source: eoxmagmod/eoxmagmod/pymm_aux.h, pymm_sphar_common.h

Addresses and strides count items instead of bytes (the arrays are requested as
`NPY_ARRAY_ALIGNED` arrays of doubles).
-/
import Verif.Model.Buffer
import Mathlib.Data.List.Range

namespace Verif.Arr

open Verif.Buf

/-- `ARRAY_DATA`, pymm_aux.h lines 305-310; `ndim` is the length of `dim`. -/
structure ArrD where
  data : Int
  dim : List Nat
  stride : List Int
deriving DecidableEq, Repr

/-- `_get_arrd_item_nocheck`, pymm_aux.h lines 323-332; `none` reads `stride[0]` of an
array without dimensions. -/
def itemNocheck (a : ArrD) (i : Nat) : Option ArrD :=
  match a.dim, a.stride with
  | _ :: d, s :: t => some ⟨a.data + i * s, d, t⟩
  | _, _ => none

/-- `_get_arrd_item_with_guard`, pymm_aux.h lines 334-340 (`_get_arrd_item`, lines 343-346,
has the guard 0). -/
def itemGuard (a : ArrD) (i guard : Nat) : Option ArrD :=
  if a.dim.length ≤ guard then some a else itemNocheck a i

/-- Access used for an array in the recursion: `none` for `_get_arrd_item_nocheck`. -/
def item : Option Nat → ArrD → Nat → Option ArrD
  | none, a, i => itemNocheck a i
  | some g, a, i => itemGuard a i g

/-- Items of all arrays. -/
def items : List (Option Nat) → List ArrD → Nat → Option (List ArrD)
  | [], [], _ => some []
  | g :: gs, a :: as, i => do
    let x ← item g a i
    let xs ← items gs as i
    return x :: xs
  | _, _, _ => none

/-- The recursion shared by `_sheval_pot`, `_sheval_grd`, `_sheval_pot_and_grd`,
`_spharpot`, `_sphargrd`, `_convert`, `_vrot_*`, ...: as long as the array with the
dimensions `dim` has more than `core` dimensions, go through its first dimension. -/
def walk {S : Type} (guards : List (Option Nat)) (core : Nat) (leaf : List ArrD → S → Option S) :
    List Nat → List ArrD → S → Option S
  | [], arrs, s => leaf arrs s
  | n :: d, arrs, s =>
    if d.length + 1 > core then
      forBelow 0 n (fun i s => do
        let its ← items guards arrs i
        walk guards core leaf d its s) s
    else leaf arrs s

/-- Strides of a C contiguous array. -/
def cstrides : List Nat → List Int
  | [] => []
  | _ :: d => (d.prod : Int) :: cstrides d

/-- New array of NumPy (`PyArray_EMPTY`): C contiguous, from the address 0 of its own
memory. -/
def contiguous (dims : List Nat) : ArrD := ⟨0, dims, cstrides dims⟩

/-- Array of the caller: a view of some memory. -/
structure NdArray (A : Type) where
  mem : Int → Option A
  arr : ArrD

/-- `n` consecutive items. -/
def readN {A : Type} (mem : Int → Option A) (p : Int) (n : Nat) : Option (List A) :=
  (List.range n).mapM (fun k : Nat => mem (p + k))

/-- `n` consecutive pairs. -/
def readPairs {A : Type} (mem : Int → Option A) (p : Int) (n : Nat) : Option (List (A × A)) :=
  (List.range n).mapM (fun k : Nat => do return (← mem (p + 2 * k), ← mem (p + 2 * k + 1)))

/-- Consecutive writes from the address `p`. -/
def wrList {A : Type} (buf : List A) (p : Int) : List A → Option (List A)
  | [] => some buf
  | v :: vs => do
    let b ← wrI buf p v
    wrList b (p + 1) vs

/-- `_compare_dimensions`, pymm_sphar_common.h lines 42-53: do the first `n` differ? -/
def compareDims (d1 d2 : List Nat) (n : Nat) : Bool := (List.range n).any (fun i => d1[i]? ≠ d2[i]?)

/-- State of the loop of `_extract_common_shape`: index, number of dimensions, dimensions. -/
structure Common where
  idx : Int
  ndim : Int
  dims : List Nat
deriving DecidableEq, Repr

/-- The loop of `_extract_common_shape`, pymm_sphar_common.h lines 74-84, from the array
`i` on; pairs of the dimensions and the number of the core dimensions. -/
def commonLoop : Nat → List (List Nat × Nat) → Common → Common
  | _, [], c => c
  | i, (d, core) :: l, c =>
    let tmp : Int := d.length - core
    commonLoop (i + 1) l (if c.ndim < tmp then ⟨i, tmp, d⟩ else c)

/-- `_extract_common_shape`, pymm_sphar_common.h lines 57-91. -/
def commonShape : List (List Nat × Nat) → Common
  | [] => ⟨-1, 0, []⟩
  | (d, core) :: l => commonLoop 1 l ⟨0, d.length - core, d⟩

/-- The checks of the shapes, pymm_sheval.h lines 243-267, pymm_spharpot.h lines 160-184,
pymm_sphargrd.h lines 175-199: from the array `i` on; `false` is `ValueError`. -/
def checkShapes (c : Common) : Nat → List (List Nat × Nat) → Bool
  | _, [] => true
  | i, (d, core) :: l =>
    if (i : Int) ≠ c.idx ∧ compareDims c.dims d (d.length - core) = true then false
    else if core = 2 ∧ d[d.length - 1]? ≠ some 2 then false
    else checkShapes c (i + 1) l

/-- `_get_max_degree`, pymm_sphar_common.h lines 95-120. -/
def getMaxDegree : List Int → Int
  | [] => -1
  | d :: l => l.foldl (fun m x => if x < m then x else m) d

/-- `_size_to_degree`, pymm_sphar_common.h lines 123-129; `fl` is the value of
`(npy_intp)(0.5*(sqrt(8*size + 1) - 3))`. -/
def sizeToDegree (fl : Nat → Int) (size : Nat) : Int :=
  let degree := fl size
  if Int.tdiv ((degree + 3) * (degree + 2)) 2 = size then degree + 1 else degree

/-- Selection of the degree, pymm_sheval.h lines 210-228, pymm_spharpot.h lines 125-143,
pymm_sphargrd.h lines 140-158; `none` is `ValueError`. -/
def selectDegree (degrees : List Int) (degree : Int) : Option Int :=
  let maxDegree := getMaxDegree degrees
  if maxDegree < 0 then none
  else if maxDegree > 2147483647 ∧ degree < 0 then none
  else if degree < 0 ∨ degree > maxDegree then some maxDegree
  else some degree

end Verif.Arr
