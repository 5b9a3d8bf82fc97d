/-
Specification of the broadcasting of arrays.
-/
import Verif.Spec.NdArray

namespace Verif.Spec

/-- The dimension `k` counted from the last one; the missing ones are 1. -/
def dimAt (d : List Nat) (k : Nat) : Nat := (d.reverse[k]?).getD 1

/-- The dimensions `a` and `b` can be combined. -/
def Compatible (a b : List Nat) : Prop := ∀ k, dimAt a k = dimAt b k ∨ dimAt a k = 1 ∨ dimAt b k = 1

/-- `d` are the dimensions of the result of an operation on arrays of the dimensions `a` and `b`. -/
structure Broadcast (a b d : List Nat) : Prop where
  compatible : Compatible a b
  length : d.length = max a.length b.length
  dims : ∀ k, dimAt d k = if dimAt a k = 1 then dimAt b k else dimAt a k

/-- The index of the item of an array of the dimensions `a` used for the item `idx` of the result: the last dimensions
correspond to each other, an array which has a single item along a dimension is repeated. -/
def source (a idx : List Nat) : List Nat :=
  List.zipWith (fun n i => if n = 1 then 0 else i) a (idx.drop (idx.length - a.length))

end Verif.Spec
