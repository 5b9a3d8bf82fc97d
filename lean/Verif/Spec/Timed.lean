/-
Specification of time dependent coefficients: series of values at nodes, tables of the
coefficients at a time.
-/
import Verif.Spec.Line
import Verif.Spec.Table
import Verif.Model.XFloat
import Mathlib.Algebra.Order.Group.Abs

namespace Verif.Spec

variable {K : Type} [Field K] [LinearOrder K]

/-- `v` is the value at `a` of the series with the given values at the nodes: piecewise
constant for the spline order 1, piecewise linear for the spline order 2. -/
inductive SplineAt (ts row : List K) (a : K) : Int → K → Prop
  | constant {j : Nat} {v : K} (h : LastNode ts a j) (hv : row[j]? = some v) : SplineAt ts row a 1 v
  | linear {j k : Nat} {u w : K} (h : Segment ts a j k) (hu : row[j]? = some u) (hw : row[k]? = some w) :
    SplineAt ts row a 2 (line (ts[j]'h.hj) u (ts[k]'h.hk) w a)

/-- `v` is the value at `a` of a series as it is given: with finite nodes and values, or with the
one node minus infinity and one value, which holds at any time. -/
inductive SeriesAt (ct row : List (X K)) (a : K) (order : Int) (v : K) : Prop
  | nodes {ts vals : List K} (ht : ct = ts.map .fin) (hv : row = vals.map .fin) (h : SplineAt ts vals a order v)
  | always (ht : ct = [.ninf]) (hv : row = [.fin v]) (ho : order = 1)

/-- Row of the coefficient of degree `n` and order `m` in a table. -/
def coefRow (n m : Int) : Nat := (n * (n + 1) / 2 + |m|).toNat

/-- `N` is the largest degree of the pairs of degree and order, 0 at least. -/
def MaxDegree (cm : List (Int × Int)) (N : Nat) : Prop :=
  (∀ e ∈ cm, e.1 ≤ N) ∧ (N = 0 ∨ ∃ e ∈ cm, e.1 = N)

/-- Table up to the degree `N` holding the values of the entries (degree, order, condition on
the value) and zeros elsewhere.  Negative orders are in the second column. -/
structure TableOf (N : Nat) (entries : List ((Int × Int) × (K → Prop))) (rows : List (K × K)) : Prop where
  len : rows.length = (N + 1) * (N + 2) / 2
  vals : ∀ e ∈ entries, e.2 (cell rows (coefRow e.1.1 e.1.2) (decide (e.1.2 < 0)))
  zero : ∀ r c, (∀ e ∈ entries, ¬ (r = coefRow e.1.1 e.1.2 ∧ c = decide (e.1.2 < 0))) → cell rows r c = 0

end Verif.Spec
