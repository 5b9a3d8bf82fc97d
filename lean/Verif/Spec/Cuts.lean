/-
Specification of coverage by intervals.

A cut of the time axis is a lower set `B` of times (the past).  An interval holds the
cut if it starts in the past and does not end in it.  The cut `{x | x <= t}` is held by
the intervals with `s <= t < e`, the cut `{x | x < t}` by those with `s < t <= e`;
so equality of coverage for all cuts is equality of coverage just after and just
before every time.
-/
import Mathlib.Order.Defs.LinearOrder

namespace Verif.Spec

variable {T O : Type} [LinearOrder T]

/-- Lower sets. -/
def IsCut (B : T → Prop) : Prop := ∀ x y, x ≤ y → B y → B x

/-- The object `o` covers the cut in a list of `(start, end, object)`. -/
def Covers (l : List (T × T × O)) (B : T → Prop) (o : O) : Prop :=
  ∃ s e, (s, e, o) ∈ l ∧ B s ∧ ¬ B e

/-- The first interval of the list holding the cut has the object `o`. -/
inductive FirstCovers (B : T → Prop) (o : O) : List (T × T × O) → Prop where
  | here (s e : T) (l : List (T × T × O)) : B s → ¬ B e → FirstCovers B o ((s, e, o) :: l)
  | there (s e : T) (o' : O) (l : List (T × T × O)) :
      ¬ (B s ∧ ¬ B e) → FirstCovers B o l → FirstCovers B o ((s, e, o') :: l)

theorem isCut_le (t : T) : IsCut (fun x => x ≤ t) := fun _ _ h1 h2 => le_trans h1 h2

theorem isCut_lt (t : T) : IsCut (fun x => x < t) := fun _ _ h1 h2 => lt_of_le_of_lt h1 h2

end Verif.Spec
