/-
Doubles with exact arithmetic: numbers of an ordered field plus NaN and the two
infinities, with the IEEE 754 rules for the special values.
Simplified: no rounding, no overflow/underflow, a single (positive) zero.
-/
import Mathlib.Algebra.Order.Field.Basic

namespace Verif

/-- A double without rounding. -/
inductive X (K : Type*) where
  | nan
  | ninf
  | fin (k : K)
  | pinf
deriving DecidableEq, Repr

namespace X

variable {K : Type*} [Field K] [LinearOrder K]

/-- IEEE `x <= y` -/
def le : X K → X K → Bool
  | nan, _ => false
  | _, nan => false
  | ninf, _ => true
  | _, pinf => true
  | fin a, fin b => decide (a ≤ b)
  | pinf, _ => false
  | _, ninf => false

/-- IEEE `x < y` -/
def lt : X K → X K → Bool
  | nan, _ => false
  | _, nan => false
  | ninf, ninf => false
  | ninf, _ => true
  | pinf, pinf => false
  | _, pinf => true
  | fin a, fin b => decide (a < b)
  | pinf, _ => false
  | _, ninf => false

/-- IEEE `x == y` -/
def eq : X K → X K → Bool
  | nan, _ => false
  | _, nan => false
  | ninf, ninf => true
  | pinf, pinf => true
  | fin a, fin b => decide (a = b)
  | _, _ => false

/-- IEEE negation -/
def neg : X K → X K
  | nan => nan
  | ninf => pinf
  | pinf => ninf
  | fin a => fin (-a)

/-- IEEE addition -/
def add : X K → X K → X K
  | nan, _ => nan
  | _, nan => nan
  | pinf, ninf => nan
  | ninf, pinf => nan
  | pinf, _ => pinf
  | _, pinf => pinf
  | ninf, _ => ninf
  | _, ninf => ninf
  | fin a, fin b => fin (a + b)

/-- IEEE subtraction -/
def sub (x y : X K) : X K := add x (neg y)

/-- infinity with the sign of `k`, NaN for zero (`inf * 0`, `0 / 0`) -/
def infSign (k : K) : X K := if 0 < k then pinf else if k < 0 then ninf else nan

/-- IEEE multiplication -/
def mul : X K → X K → X K
  | nan, _ => nan
  | _, nan => nan
  | fin a, fin b => fin (a * b)
  | pinf, fin b => infSign b
  | fin a, pinf => infSign a
  | ninf, fin b => infSign (-b)
  | fin a, ninf => infSign (-a)
  | pinf, pinf => pinf
  | ninf, ninf => pinf
  | pinf, ninf => ninf
  | ninf, pinf => ninf

/-- IEEE division; the zero divisor is a positive zero. -/
def div : X K → X K → X K
  | nan, _ => nan
  | _, nan => nan
  | fin a, fin b => if b = 0 then infSign a else fin (a / b)
  | pinf, fin b => if b < 0 then ninf else pinf
  | ninf, fin b => if b < 0 then pinf else ninf
  | fin _, _ => fin 0
  | _, _ => nan

end X

end Verif
