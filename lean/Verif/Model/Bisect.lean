/-
Model of the interval search.
Source: eoxmagmod/eoxmagmod/include/bisect.h, pymm_bisect.h
-/
import Mathlib.Order.Defs.LinearOrder
import Mathlib.Order.Basic

namespace Verif.Bisect

variable {α : Type*} [LinearOrder α]

/-- Read `v[i]` of a C array of size `v.length`.  `none` stands for an
out-of-bounds read (undefined behaviour in C). -/
def rd {β : Type*} (v : List β) (i : Int) : Option β :=
  if i < 0 then none else v[i.toNat]?

/-- C comparison `x >= y` where `x` may be NaN (`none`) and `y` is a number.
The order `α` contains the values a non-NaN double can take (infinities
included, if `α` has them). -/
def cge (x : Option α) (y : α) : Bool :=
  match x with
  | none => false
  | some a => decide (y ≤ a)

/-- C comparison `x > y`, NaN gives false. -/
def cgt (x : Option α) (y : α) : Bool :=
  match x with
  | none => false
  | some a => decide (y < a)

/-- C comparison `x <= y`, NaN gives false. -/
def cle (x : Option α) (y : α) : Bool :=
  match x with
  | none => false
  | some a => decide (a ≤ y)

/-- The halving loop of `bisect_right`, include/bisect.h lines 73-82.
`ge a` stands for the comparison `x >= a` of the searched value with a node.
`(i_high - i_low) / 2` is taken on a positive number, C and Lean division agree.
Result `none`: an out-of-bounds read happened. -/
def loopRight {β : Type*} (ge : β → Bool) (v : List β) (lo hi : Int) : Option Int :=
  if _h : lo < hi then
    let i := lo + 1 + (hi - lo) / 2
    match rd v i with
    | none => none
    | some vi => if ge vi then loopRight ge v i hi else loopRight ge v lo (i - 1)
  else some lo
termination_by (hi - lo).toNat
decreasing_by all_goals omega

/-- `bisect_right`, include/bisect.h lines 55-83, for the comparison `ge a`
standing for `x >= a`. -/
def bisectRightP {β : Type*} (ge : β → Bool) (v : List β) : Option Int :=
  let n : Int := v.length
  if n < 1 then some (-1)                       -- line 59: (n < 1) || ...
  else
    match rd v 0 with
    | none => none
    | some v0 =>
      if !(ge v0) then some (-1)                -- line 59: ... !(x >= v[0])
      else
        match rd v (n - 1) with
        | none => none
        | some vl =>
          if ge vl then some (n - 1)            -- line 63
          else loopRight ge v 0 (n - 2)         -- lines 70-82

/-- The halving loop of `bisect_left`, include/bisect.h lines 117-126;
`le a` stands for `x <= a`. -/
def loopLeft {β : Type*} (le : β → Bool) (v : List β) (lo hi : Int) : Option Int :=
  if _h : lo < hi then
    let i := lo + 1 + (hi - lo) / 2
    match rd v i with
    | none => none
    | some vi => if le vi then loopLeft le v lo (i - 1) else loopLeft le v i hi
  else some hi
termination_by (hi - lo).toNat
decreasing_by all_goals omega

/-- `bisect_left`, include/bisect.h lines 99-127; `gt a` stands for `x > a`. -/
def bisectLeftP {β : Type*} (gt le : β → Bool) (v : List β) : Option Int :=
  let n : Int := v.length
  if n < 1 then some (-1)                       -- line 103
  else
    match rd v 0 with
    | none => none
    | some v0 =>
      if !(gt v0) then some (-1)                -- line 103
      else
        match rd v (n - 1) with
        | none => none
        | some vl =>
          if gt vl then some (n - 1)            -- line 107
          else loopLeft le v 0 (n - 2)          -- lines 114-126

/-- `bisect_right(x, v, n)` for nodes which are numbers (no NaN among the nodes)
and `x` a number or NaN. -/
def bisectRight (x : Option α) (v : List α) : Option Int := bisectRightP (cge x) v

/-- `bisect_left(x, v, n)`. -/
def bisectLeft (x : Option α) (v : List α) : Option Int := bisectLeftP (cgt x) (cle x) v

/-- Side constants of the Python function, pymm_bisect.h lines 36-37. -/
inductive Side where
  | left
  | right

/-- Python `bisect(v, x, side)`, pymm_bisect.h lines 59-119, 126-179: the
search is applied to each item of the array `x`.  Simplified: an array of any
shape is represented by the flat list of its items; array conversion errors are
not modelled. -/
def bisectPy (v : List α) (xs : List (Option α)) (side : Side) : List (Option Int) :=
  xs.map fun x => match side with
    | .left => bisectLeft x v
    | .right => bisectRight x v

end Verif.Bisect
