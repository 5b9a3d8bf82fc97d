/-
Specification of the potential of a spherical harmonic model, independent of the model of
the code.
-/
import Verif.Spec.Legendre
import Mathlib.Algebra.BigOperators.Group.Finset.Basic

namespace Verif.Spec

/-- Potential `a Σ_n f_n Σ_m (g cos mλ + h sin mλ) P_n^m(φ)` with `f_n = (a/r)^(n+1)` for
the internal and `f_n = (r/a)^n` for the external sources; radius `r`, latitude `φ` and
longitude `lon` in radians. -/
noncomputable def potential (isInternal : Bool) (a : ℝ) (N : ℕ) (g h : ℕ → ℕ → ℝ) (r φ lon : ℝ) : ℝ :=
  a * ∑ n ∈ Finset.range (N + 1), (if isInternal then (a / r) ^ (n + 1) else (r / a) ^ n) *
    ∑ m ∈ Finset.range (n + 1),
      (g n m * Real.cos (m * lon) + h n m * Real.sin (m * lon)) * schmidtP n m φ

/-- Coefficients `g n m` and `h n m` of a flat table ordered by degree and order, zero beyond its end. -/
def coefG (coef : List (ℝ × ℝ)) (n m : Nat) : ℝ := ((coef[n * (n + 1) / 2 + m]?).getD (0, 0)).1
def coefH (coef : List (ℝ × ℝ)) (n m : Nat) : ℝ := ((coef[n * (n + 1) / 2 + m]?).getD (0, 0)).2

end Verif.Spec
