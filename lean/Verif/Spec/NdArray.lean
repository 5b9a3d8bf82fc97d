/-
Specification of N-dimensional arrays: indices, items, order of the items of a new array.
-/
import Mathlib.Data.List.Forall2
import Mathlib.Algebra.BigOperators.Group.List.Basic

namespace Verif.Spec

/-- `idx` is an index of an array of the given dimensions. -/
def Index (dims idx : List Nat) : Prop := List.Forall₂ (· < ·) idx dims

/-- Item of a strided array in the memory. -/
def elem {A : Type} (mem : Int → Option A) (data : Int) (strides : List Int) (idx : List Nat) : Option A :=
  mem (data + (List.zipWith (fun (i : Nat) (s : Int) => (i : Int) * s) idx strides).sum)

/-- Position of an item of a new (C contiguous) array. -/
def rank : List Nat → List Nat → Nat
  | _ :: d, i :: idx => i * d.prod + rank d idx
  | _, _ => 0

end Verif.Spec
