/-
Specification of arrays by their items.
-/
import Verif.Model.Arrays
import Verif.Spec.NdArray

namespace Verif.Spec

open Verif.Arr

variable {A : Type}

/-- Array with the given dimensions and items. -/
structure ItemsOf (a : NdArray A) (lead : List Nat) (S : List Nat → A) : Prop where
  dim : a.arr.dim = lead
  ndim : a.arr.stride.length = a.arr.dim.length
  get : ∀ idx, Index lead idx → elem a.mem a.arr.data a.arr.stride idx = some (S idx)

/-- Array of series of `n` items next to each other: the series at `idx` is `R idx`. -/
structure SeriesOf (c : NdArray A) (lead : List Nat) (n : Nat) (R : List Nat → List A) : Prop where
  dim : c.arr.dim = lead ++ [n]
  stride : ∃ s, c.arr.stride = s ++ [1] ∧ s.length = lead.length
  len : ∀ idx, Index lead idx → (R idx).length = n
  get : ∀ idx, Index lead idx → ∀ k v, (R idx)[k]? = some v →
    elem c.mem c.arr.data c.arr.stride (idx ++ [k]) = some v

/-- Array of contiguous `n1` x `n2` matrices of pairs: the pair of the row `i` and of the column
`j` of the matrix at `idx` is `(P idx i j, Q idx i j)`. -/
structure MatricesOf (c : NdArray A) (lead : List Nat) (n1 n2 : Nat) (P Q : List Nat → Nat → Nat → A) : Prop where
  dim : c.arr.dim = lead ++ [n1, n2, 2]
  stride : ∃ s, c.arr.stride = s ++ [(n2 : Int) * 2, 2, 1] ∧ s.length = lead.length
  get : ∀ idx, Index lead idx → ∀ i < n1, ∀ j < n2,
    elem c.mem c.arr.data c.arr.stride (idx ++ [i, j, 0]) = some (P idx i j) ∧
    elem c.mem c.arr.data c.arr.stride (idx ++ [i, j, 1]) = some (Q idx i j)

/-- Shapes accepted together: scalars, or the common shape. -/
def CommonShape (dims : List Nat) (l : List (List Nat)) : Prop := dims ∈ l ∧ ∀ d ∈ l, d = [] ∨ d = dims

end Verif.Spec
