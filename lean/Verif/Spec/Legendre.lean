/-
Specification of the Schmidt semi-normalised associated Legendre functions, independent of
the model: Legendre polynomials by Rodrigues' formula.
-/
import Mathlib.Algebra.Polynomial.Derivative
import Mathlib.Data.Nat.Factorial.Basic
import Mathlib.Data.Real.Sqrt
import Mathlib.Analysis.SpecialFunctions.Trigonometric.Basic

namespace Verif.Spec

open Polynomial

/-- Legendre polynomial, Rodrigues' formula `1/(2^n n!) (d/dx)^n (x^2-1)^n`. -/
noncomputable def legP (n : ℕ) : ℝ[X] :=
  C (1 / (2 ^ n * n.factorial : ℝ)) * derivative^[n] ((X ^ 2 - 1) ^ n)

/-- Schmidt semi-normalisation factor `sqrt((2 - δ_m0) (n-m)!/(n+m)!)`. -/
noncomputable def schmidtNorm (n m : ℕ) : ℝ :=
  Real.sqrt ((if m = 0 then 1 else 2) * ((n - m).factorial : ℝ) / ((n + m).factorial : ℝ))

/-- Schmidt semi-normalised associated Legendre function at the latitude `φ` (radians). -/
noncomputable def schmidtP (n m : ℕ) (φ : ℝ) : ℝ :=
  schmidtNorm n m * Real.cos φ ^ m * (derivative^[m] (legP n)).eval (Real.sin φ)

end Verif.Spec
