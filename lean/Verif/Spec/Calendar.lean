/-
Specification of the civil calendar used by the time conversions: the Julian
calendar up to 1582-10-04, the Gregorian calendar from 1582-10-15 on, proleptic
(astronomical) year numbering.
-/
import Mathlib.Data.Int.Order.Basic

namespace Verif.Spec

/-- Leap years: every fourth year until 1582, then without the centuries not
divisible by 400. -/
def leap (y : Int) : Prop := 4 ∣ y ∧ (y ≤ 1582 ∨ ¬ 100 ∣ y ∨ 400 ∣ y)

instance (y : Int) : Decidable (leap y) := by unfold leap; infer_instance

/-- Number of days of the month. -/
def monthLength (y m : Int) : Int :=
  if m = 2 then (if leap y then 29 else 28)
  else if m = 4 ∨ m = 6 ∨ m = 9 ∨ m = 11 then 30
  else 31

/-- The civil date following `(y, m, d)`. -/
def nextDate : Int × Int × Int → Int × Int × Int
  | (y, m, d) =>
    if (y, m, d) = (1582, 10, 4) then (1582, 10, 15)
    else if d < monthLength y m then (y, m, d + 1)
    else if m < 12 then (y, m + 1, 1)
    else (y + 1, 1, 1)

/-- Number of days of the year. -/
def yearLength (y : Int) : Int :=
  if y = 1582 then 355 else if leap y then 366 else 365

end Verif.Spec
