/-
Specification of piecewise linear functions.
-/
import Mathlib.Algebra.Order.Field.Basic

namespace Verif.Spec

variable {K : Type} [Field K]

/-- The straight line through the points `(t0, c0)` and `(t1, c1)`, at `a`. -/
def line (t0 c0 t1 c1 a : K) : K := c0 + (a - t0) * ((c1 - c0) / (t1 - t0))

/-- The nodes `j`, `k` (in any order of nodes) determine the piecewise linear function
at `a`: no node lies between them, and `a` lies between them, or before them when `j`
is the very first node, or after them when `k` is the very last one. -/
structure Segment [LinearOrder K] (ts : List K) (a : K) (j k : Nat) : Prop where
  hj : j < ts.length
  hk : k < ts.length
  lt : ts[j] < ts[k]
  adj : ∀ i (hi : i < ts.length), ts[i] ≤ ts[j] ∨ ts[k] ≤ ts[i]
  before : a < ts[j] → ∀ i (hi : i < ts.length), ts[j] ≤ ts[i]
  after : ts[k] < a → ∀ i (hi : i < ts.length), ts[i] ≤ ts[k]

/-- The node `j` is the last one not after `a`, or the very first one. -/
structure LastNode [LinearOrder K] (ts : List K) (a : K) (j : Nat) : Prop where
  hj : j < ts.length
  latest : ts[j] ≤ a → ∀ i (hi : i < ts.length), ts[i] ≤ ts[j] ∨ a < ts[i]
  before : a < ts[j] → ∀ i (hi : i < ts.length), ts[j] ≤ ts[i]

end Verif.Spec
