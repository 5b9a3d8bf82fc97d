/-
Specification of the fully normalised associated Legendre functions and of series of
spherical harmonics in these functions.
-/
import Verif.Spec.Legendre
import Mathlib.Algebra.BigOperators.Group.Finset.Basic

namespace Verif.Spec

open Polynomial

/-- Full normalisation `sqrt((2n+1)/2 (n-m)!/(n+m)!)`: the integral of the square over the
cosine of the colatitude is 1. -/
noncomputable def fullNorm (n m : ℕ) : ℝ :=
  Real.sqrt ((2 * (n : ℝ) + 1) / 2 * ((n - m).factorial : ℝ) / ((n + m).factorial : ℝ))

/-- Fully normalised associated Legendre function at the colatitude `θ` (radians). -/
noncomputable def fullP (n m : ℕ) (θ : ℝ) : ℝ :=
  fullNorm n m * Real.sin θ ^ m * (derivative^[m] (legP n)).eval (Real.cos θ)

/-- Series of spherical harmonics with the coefficients `a n m` of the cosine and `b n m` of the sine. -/
noncomputable def shSeries (nmax mmax : ℕ) (a b : ℕ → ℕ → ℝ) (θ φ : ℝ) : ℝ :=
  (∑ n ∈ Finset.range (nmax + 1), a n 0 * fullP n 0 θ) +
    ∑ m ∈ Finset.Icc 1 mmax, ∑ n ∈ Finset.Icc m nmax,
      (a n m * Real.cos (m * φ) + b n m * Real.sin (m * φ)) * fullP n m θ

end Verif.Spec
