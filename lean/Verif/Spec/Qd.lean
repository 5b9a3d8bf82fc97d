/-
Specification of the quasi-dipole coordinates: series of spherical harmonics of
the geodetic latitude and longitude, with coefficients which are polynomials in Re / (Re + altitude)
and piecewise linear functions of the epoch.
-/
import Verif.Spec.Alf
import Verif.Spec.Libm

namespace Verif.Spec.Qd

/-- Place of the cosine term of the degree `n` and order `m` among the terms: first the order
0 by the degree, then the pairs cosine, sine by the order and the degree. -/
def termIndex (nmax n m : ℕ) : ℕ :=
  if m = 0 then n else nmax + 1 + (m - 1) * (2 * nmax - m + 2) + 2 * (n - m)

/-- Number of the terms. -/
def termCount (nmax mmax : ℕ) : ℕ := nmax + 1 + mmax * (2 * nmax - mmax + 1)

/-- Component of the vector: `C` are the coefficients, by the power of `ρ` and by the term. -/
noncomputable def component (nmax mmax lmax : ℕ) (C : ℕ → ℝ) (ρ θ φ : ℝ) : ℝ :=
  shSeries nmax mmax
    (fun n m => ∑ l ∈ Finset.range (lmax + 1), C (l * termCount nmax mmax + termIndex nmax n m) * ρ ^ l)
    (fun n m => ∑ l ∈ Finset.range (lmax + 1), C (l * termCount nmax mmax + termIndex nmax n m + 1) * ρ ^ l) θ φ

/-- Values at the nodes extended to a piecewise linear function, constant outside of the nodes. -/
structure IsPolyline (grid : List ℝ) (v : ℕ → ℝ) (f : ℝ → ℝ) : Prop where
  below : ∀ h : 0 < grid.length, ∀ e, e ≤ grid[0] → f e = v 0
  above : ∀ h : 0 < grid.length, ∀ e, grid[grid.length - 1] ≤ e → f e = v (grid.length - 1)
  between : ∀ k (h : k + 1 < grid.length), ∀ e, grid[k] ≤ e → e ≤ grid[k + 1] →
    f e = v k + (e - grid[k]) / (grid[k + 1] - grid[k]) * (v (k + 1) - v k)

/-- Equatorial radius of the WGS84 ellipsoid [km], its flattening, the mean radius and the square of the eccentricity. -/
noncomputable def radiusEq : ℝ := 6378.137
noncomputable def flattening : ℝ := 1 / 298.257223563
noncomputable def radiusMean : ℝ := radiusEq * (1 - flattening / 3)
noncomputable def ecc2 : ℝ := flattening * (2 - flattening)

/-- Radii of curvature of the ellipsoid at the geodetic latitude `φ` in the prime vertical and in the meridian. -/
noncomputable def radiusN (φ : ℝ) : ℝ := radiusEq / Real.sqrt (1 - ecc2 * Real.sin φ ^ 2)
noncomputable def radiusM (φ : ℝ) : ℝ := radiusEq * (1 - ecc2) / Real.sqrt (1 - ecc2 * Real.sin φ ^ 2) ^ 3

end Verif.Spec.Qd
