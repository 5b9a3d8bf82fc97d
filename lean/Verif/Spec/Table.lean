/-
Reading a dense coefficient table, independent of the way it is filled.
-/
import Mathlib.Algebra.Group.Defs

namespace Verif.Spec

/-- Entry of a table with two columns; everything outside of the table counts as
zero (zero padding). -/
def cell {V : Type} [Zero V] (t : List (V × V)) (row : Nat) (second : Bool) : V :=
  match t[row]? with
  | some (a, b) => if second then b else a
  | none => 0

/-- Two tables with the same content up to zero padding. -/
def SameCells {V : Type} [Zero V] (t t' : List (V × V)) : Prop :=
  ∀ r c, cell t r c = cell t' r c

/-- Number of the coefficients `0 ≤ m ≤ n ≤ degree`, counted degree by degree. -/
def tableRows : Nat → Nat
  | 0 => 1
  | d + 1 => tableRows d + (d + 2)

end Verif.Spec
