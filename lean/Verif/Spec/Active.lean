/-
Specification: which sparse sets of a coefficient object are active.
-/
import Verif.Model.ModelEval

namespace Verif.Spec

open Verif.ModelEval

variable {T S : Type}

mutual
/-- The sets active at a cut `B` of the time axis (see Spec/Cuts.lean): a sparse set if
it holds the cut, the sets of the first member having any, or the sets of all members
if all have some. -/
def Active (B : T → Prop) : Tree T S → List S → Prop
  | .sparse vs ve s, L => (B vs ∧ ¬ B ve) ∧ L = [s]
  | .composed items, L => ActiveFirst B items L
  | .combined items, L => ActiveAll B items L

/-- First member with active sets. -/
def ActiveFirst (B : T → Prop) : List (Tree T S) → List S → Prop
  | [], _ => False
  | i :: l, L => Active B i L ∨ ((∀ L', ¬ Active B i L') ∧ ActiveFirst B l L)

/-- All members have active sets. -/
def ActiveAll (B : T → Prop) : List (Tree T S) → List S → Prop
  | [], L => L = []
  | i :: l, L => ∃ L1 L2, L = L1 ++ L2 ∧ Active B i L1 ∧ ActiveAll B l L2
end

mutual
/-- All sparse sets of an object. -/
def leaves : Tree T S → List S
  | .sparse _ _ s => [s]
  | .composed items => leavesAll items
  | .combined items => leavesAll items

/-- All sparse sets of the members. -/
def leavesAll : List (Tree T S) → List S
  | [] => []
  | i :: l => leaves i ++ leavesAll l
end

mutual
/-- The validity intervals of all sparse sets. -/
def spans : Tree T S → List (T × T)
  | .sparse vs ve _ => [(vs, ve)]
  | .composed items => spansAll items
  | .combined items => spansAll items

/-- The same for the members. -/
def spansAll : List (Tree T S) → List (T × T)
  | [] => []
  | i :: l => spans i ++ spansAll l
end

/-- All validities of `a` end before those of `b` start. -/
def Before [LE T] (a b : Tree T S) : Prop := ∀ p ∈ spans a, ∀ q ∈ spans b, p.2 ≤ q.1

/-- The order demanded of the members of combined objects: there the members of
composed objects follow each other in time. -/
inductive Ordered [LE T] : Tree T S → Prop where
  | sparse (vs ve : T) (s : S) : vs ≤ ve → Ordered (.sparse vs ve s)
  | combined (items : List (Tree T S)) : items ≠ [] → (∀ i ∈ items, Ordered i) →
      Ordered (.combined items)
  | composed (items : List (Tree T S)) : (∀ i ∈ items, Ordered i) → items.Pairwise Before →
      Ordered (.composed items)

/-- Objects whose combined parts are ordered; the members of the composed parts
elsewhere may overlap and come in any order. -/
inductive Regular [LE T] : Tree T S → Prop where
  | sparse (vs ve : T) (s : S) : Regular (.sparse vs ve s)
  | combined (items : List (Tree T S)) : items ≠ [] → (∀ i ∈ items, Ordered i) →
      Regular (.combined items)
  | composed (items : List (Tree T S)) : (∀ i ∈ items, Regular i) → Regular (.composed items)

mutual
/-- The collections of sparse sets an object may select at some time: one member of composed
objects, all members of combined ones. -/
def Selects : Tree T S → List S → Prop
  | .sparse _ _ s, L => L = [s]
  | .composed items, L => SelectsOne items L
  | .combined items, L => SelectsAll items L

/-- One of the members. -/
def SelectsOne : List (Tree T S) → List S → Prop
  | [], _ => False
  | i :: l, L => Selects i L ∨ SelectsOne l L

/-- All members. -/
def SelectsAll : List (Tree T S) → List S → Prop
  | [], L => L = []
  | i :: l, L => ∃ L1 L2, L = L1 ++ L2 ∧ Selects i L1 ∧ SelectsAll l L2
end

mutual
/-- The collections of sparse sets an object may select at the time `t`, ends of the validity intervals included: one
member of composed objects, all members of combined ones, all sets valid at `t`. -/
def ValidAt [LE T] (t : T) : Tree T S → List S → Prop
  | .sparse vs ve s, L => (vs ≤ t ∧ t ≤ ve) ∧ L = [s]
  | .composed items, L => ValidAtOne t items L
  | .combined items, L => ValidAtAll t items L

/-- One of the members. -/
def ValidAtOne [LE T] (t : T) : List (Tree T S) → List S → Prop
  | [], _ => False
  | i :: l, L => ValidAt t i L ∨ ValidAtOne t l L

/-- All members. -/
def ValidAtAll [LE T] (t : T) : List (Tree T S) → List S → Prop
  | [], L => L = []
  | i :: l, L => ∃ L1 L2, L = L1 ++ L2 ∧ ValidAt t i L1 ∧ ValidAtAll t l L2
end

/-- Sets valid for more than an instant, and compositions of such. -/
inductive Lasting [LT T] : Tree T S → Prop where
  | sparse (vs ve : T) (s : S) : vs < ve → Lasting (.sparse vs ve s)
  | composed (items : List (Tree T S)) : (∀ i ∈ items, Lasting i) → Lasting (.composed items)

/-- Objects whose composed parts are compositions of sets valid for more than an instant (as the loaders make them). -/
inductive NoInstants [LT T] : Tree T S → Prop where
  | sparse (vs ve : T) (s : S) : NoInstants (.sparse vs ve s)
  | combined (items : List (Tree T S)) : (∀ i ∈ items, NoInstants i) → NoInstants (.combined items)
  | composed (items : List (Tree T S)) : (∀ i ∈ items, Lasting i) → NoInstants (.composed items)

end Verif.Spec
